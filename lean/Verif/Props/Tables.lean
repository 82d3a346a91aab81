import Verif.Model.Tables
import Verif.Props.Render

/-!
# Property C110: tables of a flipset with any sorting algorithm
-/

set_option linter.unusedSectionVars false

namespace Recourse

variable {K : Type} [Field K] [LinearOrder K] [IsStrictOrderedRing K] [FloorRing K]
  {ext : Ext K} {o : Oracle K} {fs fs' : Flipset K} {ord : Option (List SortCol)} {srt : Sorter}

/-! ## Specification -/

/-- What a sorting algorithm does with a comparison that is total and transitive: it rearranges the list so that it is in order.  Nothing is said about
elements that compare as equal. -/
def Sorter.Sorts (srt : Sorter) : Prop :=
  ∀ (α : Type) (le : α → α → Bool) (l : List α), (∀ a b, le a b = true ∨ le b a = true) →
    (∀ a b c, le a b = true → le b c = true → le a c = true) →
    (srt α le l).Perm l ∧ (srt α le l).Pairwise fun a b => le a b = true

/-- Histories of a flipset when tables are sorted by `srt`: as `Flipset.Reachable`. -/
inductive Flipset.ReachableBy (srt : Sorter) (ext : Ext K) : Option (List SortCol) → Flipset K → Prop
  | mk (be : Backend) (A : ActionSet K) (x w : List K) (t : K) (b : Option (Builder K)) :
      Flipset.ReachableBy srt ext (some [.size, .cost, .scoreNew]) (mkFlipset be A x w t b)
  | populate {ord : Option (List SortCol)} {fs fs' : Flipset K} {o : Oracle K} {fuel : ℕ} {total : Option ℕ}
      {et : EnumType} {ct : CostType} {r : Except Err Unit} (hr : Flipset.ReachableBy srt ext ord fs)
      (h : fs.populateBy srt ext o fuel total et ct = some (fs', r)) : Flipset.ReachableBy srt ext ord fs'
  | sortBy {ord : Option (List SortCol)} {fs fs' : Flipset K} {cols : List SortCol} {inplace : Bool}
      (hr : Flipset.ReachableBy srt ext ord fs) (h : fs.sortWith srt cols inplace = .ok fs') :
      Flipset.ReachableBy srt ext (if inplace then some cols else none) fs'
  | resort {ord : Option (List SortCol)} {fs : Flipset K} (hr : Flipset.ReachableBy srt ext ord fs) :
      Flipset.ReachableBy srt ext ord (fs.resortBy srt)
  | flat {ord : Option (List SortCol)} {fs : Flipset K} (hr : Flipset.ReachableBy srt ext ord fs) :
      Flipset.ReachableBy srt ext ord (fs.toFlatBy srt).1
  | user {ord : Option (List SortCol)} {fs : Flipset K} (A : ActionSet K) (b : Option (Builder K))
      (hr : Flipset.ReachableBy srt ext ord fs) : Flipset.ReachableBy srt ext ord { fs with aset := A, builder := b }

/-- The lines of the HTML table for item number `k`: those of the flattened table, numbered from 1. -/
structure HtmlBlock (k : ℕ) (L : List (FlatLine K)) (l : List (HtmlLine K)) : Prop where
  len : l.length = L.length
  line : ∀ (p : ℕ) (h : HtmlLine K) (q : FlatLine K), l[p]? = some h → L[p]? = some q →
    h.item = k ∧ h.row = p + 1 ∧ h.feature = q.feature ∧ Shows h.current q.current ∧ Shows h.required q.required ∧
    (h.white = true ↔ k % 2 = 1)

/-! ## Rearranged tables -/

/-- `fs'` is `fs` with the rows rearranged, in order if those of `fs` are. -/
structure Arranged (fs fs' : Flipset K) : Prop where
  eq : fs' = { fs with rows := fs'.rows }
  perm : fs'.rows.Perm fs.rows
  sorted : fs.sortInplace = true → (fs.rows.Pairwise fun r s => rowLe fs.sortBy r s = true) →
    fs'.rows.Pairwise fun r s => rowLe fs.sortBy r s = true

theorem Arranged.refl (fs : Flipset K) : Arranged fs fs := ⟨rfl, .refl _, fun _ h => h⟩

theorem Flipset.Inv.arranged (h : fs.Inv ord) (ha : Arranged fs fs') : fs'.Inv ord := by
  obtain ⟨he, hp, hs⟩ := ha
  generalize fs'.rows = rows at he hp hs
  subst he
  refine ⟨fun i hi => ⟨(h.items i hi).1.congr rfl rfl rfl rfl, (h.items i hi).2⟩, ?_, ?_, h.inplace, h.cols, ?_⟩
  · exact h.rows.trans (hp.map _).symm
  · exact ((hp.map _).trans h.labels).trans (by dsimp only; rw [hp.length_eq])
  · intro cols hc
    have h1 := h.cols cols hc
    have h2 := h.inplace
    rw [hc] at h2
    rw [h1] at hs
    exact hs h2 (h.sorted cols hc)

theorem Sorter.Sorts.rows (hs : srt.Sorts) (cols : List SortCol) (rows : List (FlipRow K)) :
    (srt (FlipRow K) (rowLe cols) rows).Perm rows ∧
    (srt (FlipRow K) (rowLe cols) rows).Pairwise fun r s => rowLe cols r s = true :=
  hs _ _ _ (rowLe_total cols) fun _ _ _ => rowLe_trans cols

theorem Arranged.resort (hs : srt.Sorts) (fs : Flipset K) : Arranged fs.resort (fs.resortBy srt) := by
  unfold Flipset.resort Flipset.resortBy
  by_cases h : fs.sortInplace = true
  · rw [if_pos h, if_pos h]
    obtain ⟨h1, h2⟩ := hs.rows fs.sortBy fs.rows
    exact ⟨rfl, h1.trans (List.perm_insertionSort _ _).symm, fun _ _ => h2⟩
  · rw [if_neg h, if_neg h]
    exact .refl _

theorem Arranged.sort (hs : srt.Sorts) {cols : List SortCol} {inplace : Bool} (h : fs.sortWith srt cols inplace = .ok fs') :
    ∃ fs'', fs.sort cols inplace = .ok fs'' ∧ Arranged fs'' fs' := by
  unfold Flipset.sortWith at h
  unfold Flipset.sort
  by_cases hc : cols.isEmpty = true
  · rw [if_pos hc] at h; cases h
  rw [if_neg hc] at h ⊢
  cases h
  exact ⟨_, rfl, Arranged.resort hs _⟩

/-- The same errors, the same items. -/
theorem addBy_cases (hs : srt.Sorts) (fs : Flipset K) (l : List (Info K)) :
    (∃ er, fs.addBy srt l = .error er ∧ fs.add l = .error er) ∨
    (∃ fs' fs'', fs.addBy srt l = .ok fs' ∧ fs.add l = .ok fs'' ∧ Arranged fs'' fs') := by
  unfold Flipset.addBy Flipset.add
  cases hm : l.mapM fs.validateItem with
  | error er => exact Or.inl ⟨er, rfl, rfl⟩
  | ok items =>
    rw [ok_bind, ok_bind]
    dsimp only
    by_cases he : items.isEmpty = true
    · rw [if_pos he, if_pos he]
      exact Or.inr ⟨_, _, rfl, rfl, .refl _⟩
    · rw [if_neg he, if_neg he]
      exact Or.inr ⟨_, _, rfl, rfl, Arranged.resort hs _⟩

/-- The end of `populate`, for one way of adding items. -/
def populateEnd (add : Flipset K → List (Info K) → Except Err (Flipset K)) (o : Oracle K) (et : EnumType) (fuel : ℕ) (total : Option ℕ)
    (g : Flipset K) (b : Builder K) : Option (Flipset K × Except Err Unit) :=
  match b.populate o et fuel total with
  | .error er => some (g, .error er)
  | .ok none => none
  | .ok (some (b, infos)) =>
    match add { g with builder := some b } infos with
    | .error er => some ({ g with builder := some b }, .error er)
    | .ok fs => some (fs, .ok ())

theorem populateBy_cases (hs : srt.Sorts) (fs : Flipset K) (fuel : ℕ) (total : Option ℕ) (et : EnumType) (ct : CostType) :
    (fs.populateBy srt ext o fuel total et ct = none ∧ fs.populate ext o fuel total et ct = none) ∨
    ∃ fs' fs'' r, fs.populateBy srt ext o fuel total et ct = some (fs', r) ∧ fs.populate ext o fuel total et ct = some (fs'', r) ∧
      Arranged fs'' fs' := by
  unfold Flipset.populateBy Flipset.populate
  dsimp only
  have tail : ∀ (g : Flipset K) (b : Builder K),
      (populateEnd (Flipset.addBy srt) o et fuel total g b = none ∧ populateEnd Flipset.add o et fuel total g b = none) ∨
      ∃ fs' fs'' r, populateEnd (Flipset.addBy srt) o et fuel total g b = some (fs', r) ∧
        populateEnd Flipset.add o et fuel total g b = some (fs'', r) ∧ Arranged fs'' fs' := by
    intro g b
    unfold populateEnd
    cases hp : b.populate o et fuel total with
    | error er => exact Or.inr ⟨_, _, _, rfl, rfl, .refl _⟩
    | ok q =>
      cases q with
      | none => exact Or.inl ⟨rfl, rfl⟩
      | some q =>
        obtain ⟨b1, infos⟩ := q
        dsimp only
        rcases addBy_cases hs ({ g with builder := some b1 } : Flipset K) infos with ⟨er, h1, h2⟩ | ⟨f1, f2, h1, h2, h3⟩
        · rw [h1, h2]; exact Or.inr ⟨_, _, _, rfl, rfl, .refl _⟩
        · rw [h1, h2]; exact Or.inr ⟨_, _, _, rfl, rfl, h3⟩
  cases hb : fs.builder with
  | some b => exact tail _ _
  | none =>
    cases hm : mkBuilder fs.backend ct fs.aset fs.coefs fs.intercept with
    | error er => exact Or.inr ⟨_, _, _, rfl, rfl, .refl _⟩
    | ok c =>
      dsimp only
      rcases hx : c.setX ext fs.x with ⟨b, e⟩
      cases e with
      | error er => exact Or.inr ⟨_, _, _, rfl, rfl, .refl _⟩
      | ok u => exact tail _ _

theorem Arranged.populate (hs : srt.Sorts) {fuel : ℕ} {total : Option ℕ} {et : EnumType} {ct : CostType} {r : Except Err Unit}
    (h : fs.populateBy srt ext o fuel total et ct = some (fs', r)) :
    ∃ fs'', fs.populate ext o fuel total et ct = some (fs'', r) ∧ Arranged fs'' fs' := by
  rcases populateBy_cases (ext := ext) (o := o) hs fs fuel total et ct with ⟨h1, -⟩ | ⟨f1, f2, r', h1, h2, h3⟩
  · rw [h] at h1; cases h1
  · rw [h] at h1; cases h1; exact ⟨f2, h2, h3⟩

theorem Flipset.ReachableBy.inv (hs : srt.Sorts) (h : fs.ReachableBy srt ext ord) : fs.Inv ord := by
  induction h with
  | mk be A x w t b => exact .mk' be A x w t b
  | populate hr h ih =>
    obtain ⟨f, h1, h2⟩ := Arranged.populate hs h
    exact (ih.populate h1).arranged h2
  | sortBy hr h ih =>
    obtain ⟨f, h1, h2⟩ := Arranged.sort hs h
    exact (ih.sort h1).arranged h2
  | resort hr ih => exact ih.resort.arranged (Arranged.resort hs _)
  | flat hr ih => exact ih.resort.arranged (Arranged.resort hs _)
  | user A b hr ih => exact ih.congr rfl rfl rfl rfl rfl rfl rfl rfl

theorem Arranged.items (h : Arranged fs fs') : fs'.items = fs.items ∧ fs'.names = fs.names ∧ fs'.x = fs.x := by
  rw [h.eq]; exact ⟨rfl, rfl, rfl⟩

/-! ## Merging -/

section
variable {τ ι β γ : Type} [DecidableEq ι]

theorem filter_one {P : List τ} {key : τ → ι} (g : τ → γ) (hnd : (P.map key).Nodup) {t : τ} (ht : t ∈ P) :
    (P.map fun u => (key u, g u)).filter (fun b => decide (b.1 = key t)) = [(key t, g t)] := by
  induction P with
  | nil => cases ht
  | cons u P ih =>
    rw [List.map_cons, List.nodup_cons] at hnd
    rw [List.map_cons, List.filter_cons]
    rcases List.mem_cons.mp ht with rfl | ht
    · rw [if_pos (by simp)]
      have : (P.map fun u => (key u, g u)).filter (fun b => decide (b.1 = key t)) = [] := by
        rw [List.filter_eq_nil_iff]
        intro b hb
        obtain ⟨v, hv, rfl⟩ := List.mem_map.mp hb
        have : key v ≠ key t := fun he => hnd.1 (he ▸ List.mem_map_of_mem hv)
        simpa using this
      rw [this]
    · have hne : key u ≠ key t := fun he => hnd.1 (he ▸ List.mem_map_of_mem ht)
      rw [if_neg (by simpa using hne), ih hnd.2 ht]

/-- Tables with the same keys, each once, are merged row by row. -/
theorem joinIdx_keys {P : List τ} (key : τ → ι) (f : τ → β) (g : τ → γ) (hnd : (P.map key).Nodup) :
    joinIdx (P.map fun t => (key t, f t)) (P.map fun t => (key t, g t)) = P.map fun t => (key t, (f t, g t)) := by
  unfold joinIdx
  rw [List.flatMap_map]
  have : ∀ t ∈ P, ((P.map fun t => (key t, g t)).filter fun b => decide (b.1 = key t)).map
      (fun b => (key t, (f t, b.2))) = [(key t, (f t, g t))] := by
    intro t ht
    rw [filter_one g hnd ht]
    rfl
  rw [List.flatMap_def, List.map_congr_left this]
  rw [show (P.map fun t => [(key t, (f t, g t))]) = (P.map fun t => (key t, (f t, g t))).map fun e => [e] by
    rw [List.map_map]; rfl]
  exact flatten_single _
end

/-- A column that lists, for each changed feature, a value of the feature. -/
theorem stackCol_eq {β : Type} {rows : List (FlipRow K)} {col : FlipRow K → List β} {f : ℕ → FlipRow K → ℕ → β}
    (h : ∀ r ∈ rows, col r = r.featureIdx.zipIdx.map fun q => f q.1 r q.2) :
    stackCol col rows = (rows.flatMap fun r => r.featureIdx.zipIdx.map fun q => (r, q)).map
      fun t => ((t.1.label, t.2.2), f t.2.1 t.1 t.2.2) := by
  unfold stackCol
  rw [List.map_flatMap, List.flatMap_def, List.flatMap_def]
  congr 1
  apply List.map_congr_left
  intro r hr
  rw [h r hr, List.map_map, List.zipIdx_map, List.map_map]
  apply List.ext_getElem?
  intro n
  simp only [List.getElem?_map, List.getElem?_zipIdx]
  cases r.featureIdx[n]? <;> simp

theorem positions_nodup {rows : List (FlipRow K)} (h : (rows.map (·.label)).Nodup) :
    ((rows.flatMap fun r => r.featureIdx.zipIdx.map fun q => (r, q)).map
      fun t : FlipRow K × ℕ × ℕ => (t.1.label, t.2.2)).Nodup := by
  rw [List.map_flatMap, List.nodup_flatMap]
  refine ⟨fun r _ => ?_, ?_⟩
  · rw [List.map_map]
    have : (r.featureIdx.zipIdx.map ((fun t : FlipRow K × ℕ × ℕ => (t.1.label, t.2.2)) ∘ fun q => (r, q)))
        = (r.featureIdx.zipIdx.map (·.2)).map fun p => (r.label, p) := by
      rw [List.map_map]; rfl
    rw [this]
    refine List.Nodup.map (fun p q hpq => (Prod.mk.inj hpq).2) ?_
    rw [List.zipIdx_map_snd]
    exact List.nodup_range'
  · rw [List.Nodup, List.pairwise_map] at h
    refine h.imp fun {r s} hne => ?_
    rw [Function.onFun, List.disjoint_left]
    intro t ht hs
    obtain ⟨u, hu, rfl⟩ := List.mem_map.mp ht
    obtain ⟨v, hv, he⟩ := List.mem_map.mp hs
    obtain ⟨q, -, rfl⟩ := List.mem_map.mp hu
    obtain ⟨q', -, rfl⟩ := List.mem_map.mp hv
    exact hne (Prod.mk.inj he).1.symm

theorem zipIdx_map_fst' {α β : Type} (l : List α) (g : α → β) : (l.zipIdx.map fun q => g q.1) = l.map g := by
  rw [show (l.zipIdx.map fun q => g q.1) = (l.zipIdx.map Prod.fst).map g by rw [List.map_map]; rfl, List.zipIdx_map_fst]

/-- Unstacking and merging gives the lines of the rows. -/
theorem mergedLines_eq (hi : fs.Inv ord) : mergedLines fs.rows = fs.rows.flatMap FlipRow.lines := by
  have hrow : ∀ r ∈ fs.rows, ∃ a : List K, r.features = r.featureIdx.map (fun j => fs.names.getD j "") ∧
      r.x = r.featureIdx.map (fun j => fs.x.getD j 0) ∧ r.xNew = r.featureIdx.map fun j => fs.x.getD j 0 + a.getD j 0 := by
    intro r hr
    have h1 : r.bare ∈ fs.items.map (fs.itemRow 0) := hi.rows.mem_iff.mpr (List.mem_map_of_mem hr)
    obtain ⟨i, -, he⟩ := List.mem_map.mp h1
    have e1 : r.bare.features = (fs.itemRow 0 i).features := by rw [he]
    have e2 : r.bare.x = (fs.itemRow 0 i).x := by rw [he]
    have e3 : r.bare.xNew = (fs.itemRow 0 i).xNew := by rw [he]
    have e4 : r.bare.featureIdx = (fs.itemRow 0 i).featureIdx := by rw [he]
    refine ⟨i.actions.getD [], ?_, ?_, ?_⟩
    · exact e1.trans (by rw [show r.featureIdx = (fs.itemRow 0 i).featureIdx from e4]; rfl)
    · exact e2.trans (by rw [show r.featureIdx = (fs.itemRow 0 i).featureIdx from e4]; rfl)
    · exact e3.trans (by rw [show r.featureIdx = (fs.itemRow 0 i).featureIdx from e4]; rfl)
  have hnd : (fs.rows.map (·.label)).Nodup := hi.labels.nodup_iff.mpr List.nodup_range
  have hpos := positions_nodup hnd
  set P := fs.rows.flatMap fun r => r.featureIdx.zipIdx.map fun q => (r, q) with hP
  have hval : ∀ r : FlipRow K, ∃ a : List K, r ∈ fs.rows →
      r.xNew = r.featureIdx.map fun j => fs.x.getD j 0 + a.getD j 0 := by
    intro r
    by_cases hr : r ∈ fs.rows
    · obtain ⟨a, -, -, h⟩ := hrow r hr; exact ⟨a, fun _ => h⟩
    · exact ⟨[], fun h => absurd h hr⟩
  choose A hA using hval
  unfold mergedLines
  rw [stackCol_eq (col := (·.features)) (f := fun j _ _ => fs.names.getD j "") (fun r hr => by
      obtain ⟨a, h, -, -⟩ := hrow r hr
      exact h.trans (zipIdx_map_fst' _ (fun j => fs.names.getD j "")).symm),
    stackCol_eq (col := (·.x)) (f := fun j _ _ => fs.x.getD j 0) (fun r hr => by
      obtain ⟨a, -, h, -⟩ := hrow r hr
      exact h.trans (zipIdx_map_fst' _ (fun j => fs.x.getD j 0)).symm),
    stackCol_eq (col := (·.xNew)) (f := fun j r _ => fs.x.getD j 0 + (A r).getD j 0) (fun r hr =>
      (hA r hr).trans (zipIdx_map_fst' _ (fun j => fs.x.getD j 0 + (A r).getD j 0)).symm), ← hP]
  rw [joinIdx_keys (fun t : FlipRow K × ℕ × ℕ => (t.1.label, t.2.2)) _ _ hpos,
    joinIdx_keys (fun t : FlipRow K × ℕ × ℕ => (t.1.label, t.2.2)) _ _ hpos, List.map_map, hP, List.map_flatMap,
    List.flatMap_def, List.flatMap_def]
  congr 1
  apply List.map_congr_left
  intro r hr
  obtain ⟨a, h1, h2, -⟩ := hrow r hr
  unfold FlipRow.lines
  rw [h1, h2, hA r hr, zip_three, List.map_map, List.map_map]
  exact zipIdx_map_fst' _ (fun j => (⟨r.label, fs.names.getD j "", fs.x.getD j 0, fs.x.getD j 0 + (A r).getD j 0⟩ : FlatLine K))

/-! ## Groups -/

/-- The rows by label. -/
theorem Flipset.Inv.by_label (hi : fs.Inv ord) : ∃ items' : List (Info K), items'.Perm fs.items ∧ items'.length = fs.rows.length ∧
    ∀ (k : ℕ) (i : Info K), items'[k]? = some i →
      ∃ r : FlipRow K, fs.rows.filter (fun r => decide (r.label = k)) = [r] ∧ r.lines = itemLines fs.names fs.x k i := by
  set n := fs.rows.length with hn
  have hrow : ∀ k, ∃ r : FlipRow K, k < n → fs.rows.filter (fun r => decide (r.label = k)) = [r] := by
    intro k
    by_cases hk : k < n
    · obtain ⟨r, hr⟩ := filter_key (fun r : FlipRow K => r.label) hi.labels hk
      exact ⟨r, fun _ => hr⟩
    · exact ⟨⟨0, .nan, 0, [], [], [], [], 0, 0, false, false⟩, fun h => absurd h hk⟩
  choose ρ hρ using hrow
  have hsort : fs.rows.Perm ((List.range n).map ρ) := by
    have e1 := sorted_groups (fun r : FlipRow K => r.label) n
      (fs.rows.insertionSort fun r s => r.label ≤ s.label)
      (by
        have : Std.Total (fun r s : FlipRow K => r.label ≤ s.label) := ⟨fun r s => le_total _ _⟩
        have : IsTrans (FlipRow K) (fun r s : FlipRow K => r.label ≤ s.label) := ⟨fun _ _ _ => le_trans⟩
        exact List.pairwise_insertionSort _ _)
      (by
        intro r hr
        have hr := (List.perm_insertionSort _ _).mem_iff.mp hr
        have := hi.labels.mem_iff.mp (List.mem_map_of_mem (f := (·.label)) hr)
        exact List.mem_range.mp this)
    have e2 : ((List.range n).flatMap fun k =>
        (fs.rows.insertionSort fun r s => r.label ≤ s.label).filter (fun r => decide (r.label = k)))
        = (List.range n).map ρ := by
      rw [List.flatMap_def]
      have : ((List.range n).map fun k =>
          (fs.rows.insertionSort fun r s => r.label ≤ s.label).filter (fun r => decide (r.label = k)))
          = ((List.range n).map ρ).map fun r => [r] := by
        rw [List.map_map]
        apply List.map_congr_left
        intro k hk
        rw [insertionSort_filter (fun r : FlipRow K => r.label)]
        exact hρ k (List.mem_range.mp hk)
      rw [this]
      exact flatten_single _
    rw [← e2, ← e1]
    exact (List.perm_insertionSort _ _).symm
  have hperm : ((List.range n).map ρ |>.map FlipRow.bare).Perm (fs.items.map (fs.itemRow 0)) :=
    ((hsort.map _).symm).trans hi.rows.symm
  have hf : List.Forall₂ (fun (L : FlipRow K) (i : Info K) => L = fs.itemRow 0 i) (fs.items.map (fs.itemRow 0)) fs.items := by
    rw [List.forall₂_map_left_iff]
    exact List.forall₂_same.mpr fun _ _ => rfl
  obtain ⟨items', hf', hp'⟩ := List.perm_comp_forall₂ hperm hf
  have hlen : items'.length = n := by
    have := hf'.length_eq
    simpa using this.symm
  refine ⟨items', hp', hlen, fun k i hk => ?_⟩
  have hk' : k < items'.length := (List.getElem?_eq_some_iff.mp hk).1
  have hb : (ρ k).bare = fs.itemRow 0 i := by
    have := List.Forall₂.get hf' (i := k) (by simpa [hlen] using hk') hk'
    simp only [List.get_eq_getElem, List.getElem_map, List.getElem_range] at this
    rw [this]
    congr 1
    exact (List.getElem?_eq_some_iff.mp hk).2
  have hr := hρ k (hlen ▸ hk')
  refine ⟨ρ k, hr, ?_⟩
  have hlab : (ρ k).label = k := by
    have : ρ k ∈ fs.rows.filter (fun r => decide (r.label = k)) := by rw [hr]; simp
    simpa using (List.mem_filter.mp this).2
  rw [lines_bare _ k hlab, hb]
  apply itemRow_lines
  have hmem : i ∈ fs.items := hp'.mem_iff.mp (List.mem_of_getElem? hk)
  obtain ⟨⟨⟨a, ha, -⟩, -, -⟩, -⟩ := hi.items _ hmem
  rw [ha]; simp

theorem lines_item (r : FlipRow K) (l : FlatLine K) (hl : l ∈ r.lines) : l.item = r.label := by
  unfold FlipRow.lines at hl
  obtain ⟨q, -, rfl⟩ := List.mem_map.mp hl
  rfl

theorem lines_filter (rows : List (FlipRow K)) (k : ℕ) :
    (rows.flatMap FlipRow.lines).filter (fun l => decide (l.item = k))
      = (rows.filter fun r => decide (r.label = k)).flatMap FlipRow.lines := by
  induction rows with
  | nil => rfl
  | cons r rs ih =>
    rw [List.flatMap_cons, List.filter_append, ih, List.filter_cons]
    by_cases hr : r.label = k
    · rw [if_pos (by simpa using hr), List.flatMap_cons]
      congr 1
      rw [List.filter_eq_self]
      intro l hl
      simpa [lines_item r l hl] using hr
    · rw [if_neg (by simpa using hr)]
      have : r.lines.filter (fun l => decide (l.item = k)) = [] := by
        rw [List.filter_eq_nil_iff]
        intro l hl
        simpa [lines_item r l hl] using hr
      rw [this, List.nil_append]

/-- The sorted lines are the groups of the items, each in some order. -/
theorem Flipset.Inv.flat (hi : fs.Inv ord) {l : List (FlatLine K)} (hp : l.Perm (fs.rows.flatMap FlipRow.lines))
    (hs : l.Pairwise fun a b => a.item ≤ b.item) :
    ∃ (items' : List (Info K)) (bs : List (List (FlatLine K))), items'.Perm fs.items ∧ l = bs.flatten ∧
      bs.length = items'.length ∧
      ∀ (k : ℕ) (i : Info K) (b : List (FlatLine K)), items'[k]? = some i → bs[k]? = some b →
        b.Perm (itemLines fs.names fs.x k i) := by
  obtain ⟨items', h1, h2, h3⟩ := hi.by_label
  have hlt : ∀ a ∈ l, a.item < fs.rows.length := by
    intro a ha
    obtain ⟨r, hr, ha⟩ := List.mem_flatMap.mp (hp.mem_iff.mp ha)
    rw [lines_item r a ha]
    exact List.mem_range.mp (hi.labels.mem_iff.mp (List.mem_map_of_mem (f := (·.label)) hr))
  refine ⟨items', (List.range fs.rows.length).map fun k => l.filter fun a => decide (a.item = k), h1, ?_, ?_, ?_⟩
  · have := sorted_groups (fun a : FlatLine K => a.item) fs.rows.length l hs hlt
    rwa [List.flatMap_def] at this
  · simp [h2]
  · intro k i b hk hb
    have hk' : k < fs.rows.length := h2 ▸ (List.getElem?_eq_some_iff.mp hk).1
    rw [List.getElem?_map, List.getElem?_range hk'] at hb
    simp only [Option.map_some, Option.some.injEq] at hb
    subst hb
    obtain ⟨r, hr, hl⟩ := h3 k i hk
    have := hp.filter fun a => decide (a.item = k)
    rw [lines_filter, hr] at this
    simpa [hl] using this

/-! ## C110 -/

/-- **C110**, table.  Whatever the sorting algorithm does with ties: after every history the rows of the table correspond one to one to the stored items,
each describing its item; their labels are `0, …, n - 1` in some order; `len` is the number of rows; and the rows are in the order of the columns of the
last `sort(by = …)` in place. -/
theorem C110_table (hs : srt.Sorts) (h : fs.ReachableBy srt ext ord) :
    (∃ rows', rows'.Perm fs.rows ∧
      List.Forall₂ (DescribesItem fs.names fs.x fs.coefs fs.intercept) fs.items rows') ∧
    (fs.rows.map (·.label)).Perm (List.range fs.len) ∧ fs.len = fs.rows.length ∧
    ∀ cols, ord = some cols → fs.rows.Pairwise (OrderedBy cols) := by
  obtain ⟨h1, h2, h3⟩ := (h.inv hs).table
  refine ⟨h1, h2, h3, fun cols hc => ?_⟩
  subst hc
  exact (h.inv hs).order

/-- **C110**, items.  The sorting algorithm affects the order of the rows only: `populate` returns, or raises, exactly as with the stable algorithm, and
leaves the same flipset up to the order of the rows. -/
theorem C110_items (hs : srt.Sorts) (fs : Flipset K) (fuel : ℕ) (total : Option ℕ) (et : EnumType) (ct : CostType) :
    (fs.populateBy srt ext o fuel total et ct = none ↔ fs.populate ext o fuel total et ct = none) ∧
    ∀ fs' fs'' r r', fs.populateBy srt ext o fuel total et ct = some (fs', r) → fs.populate ext o fuel total et ct = some (fs'', r') →
      r = r' ∧ fs' = { fs'' with rows := fs'.rows } ∧ fs'.rows.Perm fs''.rows := by
  rcases populateBy_cases (ext := ext) (o := o) hs fs fuel total et ct with ⟨h1, h2⟩ | ⟨f1, f2, r', h1, h2, h3⟩
  · rw [h1, h2]
    exact ⟨Iff.rfl, fun _ _ _ _ h => by cases h⟩
  · rw [h1, h2]
    refine ⟨⟨(fun h => by cases h), fun h => by cases h⟩, fun a b r r' ha hb => ?_⟩
    cases ha; cases hb
    exact ⟨rfl, h3.eq, h3.perm⟩

/-- **C110**, flattened table.  After every history `to_flat_df()` lists, for one numbering of all stored items, the items in the order of their
numbers, all lines of an item next to each other: one line for each changed feature with its name, current and required value, in some order.  The call
changes neither the items nor (up to order) the table. -/
theorem C110_flat (hs : srt.Sorts) (h : fs.ReachableBy srt ext ord) :
    (∃ (items' : List (Info K)) (bs : List (List (FlatLine K))), items'.Perm fs.items ∧ (fs.toFlatBy srt).2 = bs.flatten ∧
      bs.length = items'.length ∧
      ∀ (k : ℕ) (i : Info K) (b : List (FlatLine K)), items'[k]? = some i → bs[k]? = some b →
        b.Perm (itemLines fs.names fs.x k i)) ∧
    (fs.toFlatBy srt).1.items = fs.items ∧ (fs.toFlatBy srt).1.rows.Perm fs.rows := by
  have ha := Arranged.resort hs fs
  have hi : (fs.resortBy srt).Inv ord := (h.inv hs).resort.arranged ha
  obtain ⟨g1, g2, g3⟩ := ha.items
  obtain ⟨r1, r2, r3, -, -, -, -, r8⟩ := resort_fields fs
  obtain ⟨s1, s2⟩ := hs (FlatLine K) (fun a b => decide (a.item ≤ b.item)) (mergedLines (fs.resortBy srt).rows)
    (fun a b => by simpa using le_total _ _) (fun a b c => by simpa using le_trans)
  rw [mergedLines_eq hi] at s1 s2
  obtain ⟨items', bs, h1, h2, h3, h4⟩ := hi.flat s1 (s2.imp fun h => of_decide_eq_true h)
  rw [g1, r1] at h1
  rw [g2, g3, r2, r3] at h4
  refine ⟨⟨items', bs, h1, ?_, h3, h4⟩, g1.trans r1, ha.perm.trans r8⟩
  unfold Flipset.toFlatBy
  dsimp only
  rw [mergedLines_eq hi]
  exact h2

theorem htmlFrom_block' {L pre post : List (FlatLine K)} {k : ℕ} (hL : ∀ q ∈ L, q.item = k)
    (hpre : ∀ q ∈ pre, q.item ≠ k) : HtmlBlock k L (htmlFrom (pre ++ (L ++ post)) pre.length L) := by
  refine ⟨by unfold htmlFrom; simp, fun p h q hp hq => ?_⟩
  unfold htmlFrom at hp
  rw [List.getElem?_map, List.getElem?_zipIdx, hq] at hp
  simp only [Option.map_some, Option.some.injEq] at hp
  subst hp
  have hk : q.item = k := hL q (List.mem_of_getElem? hq)
  have hpl : p < L.length := (List.getElem?_eq_some_iff.mp hq).1
  refine ⟨hk, ?_, rfl, valueText_shows _, valueText_shows _, ?_⟩
  · dsimp only
    rw [List.take_append, List.take_append, List.countP_append, List.countP_append]
    have h1 : List.countP (fun q_1 => decide (q_1.item = q.item)) (List.take (pre.length + p) pre) = 0 := by
      rw [List.countP_eq_zero]
      intro r hr
      rw [hk]
      simpa using hpre r (List.mem_of_mem_take hr)
    have h2 : pre.length + p - pre.length = p := by omega
    have h3 : p - L.length = 0 := by omega
    rw [h1, h2, h3, List.take_zero]
    have h4 : List.countP (fun q_1 => decide (q_1.item = q.item)) (L.take p) = p := by
      rw [List.countP_eq_length.mpr, List.length_take]
      · omega
      · intro r hr
        rw [hk]
        simpa using hL r (List.mem_of_mem_take hr)
    rw [h4]
    simp
  · dsimp only
    unfold isWhite
    rw [hk]
    simp

theorem htmlLines_groups (Ls : List (List (FlatLine K))) (k : ℕ) (pre : List (FlatLine K))
    (hL : ∀ (j : ℕ) (L : List (FlatLine K)), Ls[j]? = some L → ∀ q ∈ L, q.item = k + j)
    (hpre : ∀ q ∈ pre, q.item < k) :
    ∃ bs : List (List (HtmlLine K)), bs.length = Ls.length ∧
      htmlFrom (pre ++ Ls.flatten) pre.length Ls.flatten = bs.flatten ∧
      ∀ (j : ℕ) (L : List (FlatLine K)) (b : List (HtmlLine K)), Ls[j]? = some L → bs[j]? = some b → HtmlBlock (k + j) L b := by
  induction Ls generalizing k pre with
  | nil => exact ⟨[], rfl, rfl, fun j i b h => by simp at h⟩
  | cons L Ls ih =>
    rw [List.flatten_cons]
    have hL0 : ∀ q ∈ L, q.item = k := hL 0 L rfl
    obtain ⟨bs, h1, h2, h3⟩ := ih (k + 1) (pre ++ L)
      (fun j L' hj q hq => by
        have := hL (j + 1) L' (by simpa using hj) q hq
        omega)
      (by
        intro q hq
        rcases List.mem_append.mp hq with hq | hq
        · exact Nat.lt_succ_of_lt (hpre q hq)
        · rw [hL0 q hq]; exact Nat.lt_succ_self k)
    refine ⟨htmlFrom (pre ++ (L ++ Ls.flatten)) pre.length L :: bs, by simp [h1], ?_, ?_⟩
    · rw [htmlFrom_append, List.flatten_cons, ← h2, List.length_append, List.append_assoc]
    · intro j L' b hj hb
      cases j with
      | zero =>
        simp only [List.getElem?_cons_zero, Option.some.injEq] at hj hb
        subst hj; subst hb
        exact htmlFrom_block' hL0 fun q hq => (hpre q hq).ne
      | succ j =>
        simp only [List.getElem?_cons_succ] at hj hb
        have := h3 j L' b hj hb
        rwa [show k + (j + 1) = k + 1 + j by omega]

/-- **C110**, HTML.  `to_html()` says that there is no recourse exactly for flipsets without items; otherwise it shows the items in the order of their
numbers, all lines of an item next to each other, numbered from 1, on the same background, one for each changed feature. -/
theorem C110_html (hs : srt.Sorts) (h : fs.ReachableBy srt ext ord) :
    ((fs.toHtmlBy srt).2 = none ↔ fs.items = []) ∧
    (∀ l, (fs.toHtmlBy srt).2 = some l → ∃ (items' : List (Info K)) (bs : List (List (HtmlLine K))), items'.Perm fs.items ∧
      l = bs.flatten ∧ bs.length = items'.length ∧
      ∀ (k : ℕ) (i : Info K) (b : List (HtmlLine K)), items'[k]? = some i → bs[k]? = some b →
        ∃ L, L.Perm (itemLines fs.names fs.x k i) ∧ HtmlBlock k L b) := by
  obtain ⟨⟨items', Ls, h1, h2, h3, h4⟩, h5, h6⟩ := C110_flat hs h
  have hl : fs.items.length = (fs.toFlatBy srt).1.rows.length := by
    rw [h6.length_eq]
    exact (C110_table hs h).2.2.1
  unfold Flipset.toHtmlBy
  dsimp only
  by_cases he : (fs.toFlatBy srt).1.rows.isEmpty = true
  · rw [if_pos he]
    rw [List.isEmpty_iff.mp he] at hl
    exact ⟨⟨fun _ => List.length_eq_zero_iff.mp hl, fun _ => rfl⟩, fun l hl => by cases hl⟩
  · rw [if_neg he]
    refine ⟨⟨(fun hh => by cases hh), fun h0 => ?_⟩, fun l hl' => ?_⟩
    · rw [h0] at hl
      exact absurd (List.isEmpty_iff.mpr (List.length_eq_zero_iff.mp hl.symm)) he
    · cases hl'
      have hitem : ∀ (j : ℕ) (L : List (FlatLine K)), Ls[j]? = some L → ∀ q ∈ L, q.item = 0 + j := by
        intro j L hj q hq
        have hj' : j < items'.length := h3 ▸ (List.getElem?_eq_some_iff.mp hj).1
        have := h4 j _ L (List.getElem?_eq_getElem hj') hj
        rw [itemLines_item (this.mem_iff.mp hq), Nat.zero_add]
      obtain ⟨bs, g1, g2, g3⟩ := htmlLines_groups Ls 0 [] hitem (by simp)
      refine ⟨items', bs, h1, ?_, g1.trans h3, fun k i b hk hb => ?_⟩
      · rw [← g2, h2]
        rfl
      · have hk' : k < Ls.length := h3 ▸ (List.getElem?_eq_some_iff.mp hk).1
        refine ⟨Ls[k], h4 k i _ hk (List.getElem?_eq_getElem hk'), ?_⟩
        have := g3 k _ b (List.getElem?_eq_getElem hk') hb
        rwa [Nat.zero_add] at this

/-- A stable algorithm. -/
def stableSort : Sorter := fun _ le l => l.insertionSort fun a b => le a b = true

/-- With a stable algorithm the operations are those of `Model/Flipset.lean`, and the lines of an item are in the order of the columns (C60). -/
theorem C110_stable (h : fs.Reachable ext ord) : stableSort.Sorts ∧
    (∀ (fuel : ℕ) (total : Option ℕ) (et : EnumType) (ct : CostType),
      fs.populateBy stableSort ext o fuel total et ct = fs.populate ext o fuel total et ct) ∧
    fs.toFlatBy stableSort = fs.toFlat := by
  refine ⟨fun α le l htot htr => ?_, fun fuel total et ct => rfl, ?_⟩
  · have : Std.Total (fun a b : α => le a b = true) := ⟨htot⟩
    have : IsTrans α (fun a b : α => le a b = true) := ⟨htr⟩
    exact ⟨List.perm_insertionSort _ _, List.pairwise_insertionSort _ _⟩
  · have hi : fs.resort.Inv ord := (Flipset.Reachable.resort h).inv
    unfold Flipset.toFlatBy Flipset.toFlat
    dsimp only
    have e : fs.resortBy stableSort = fs.resort := rfl
    rw [e, mergedLines_eq hi]
    unfold stableSort
    congr 2
    funext a b
    simp

/-- An algorithm that turns ties around. -/
def turningSort : Sorter := fun _ le l => l.reverse.insertionSort fun a b => le a b = true

theorem turningSort_sorts : turningSort.Sorts := by
  intro α le l htot htr
  have : Std.Total (fun a b : α => le a b = true) := ⟨htot⟩
  have : IsTrans α (fun a b : α => le a b = true) := ⟨htr⟩
  exact ⟨(List.perm_insertionSort _ _).trans (List.reverse_perm _), List.pairwise_insertionSort _ _⟩

/-- A case: an algorithm that is not stable, with which the lines of an item come in the opposite order, and a populated flipset with it. -/
theorem C110_example (be : Backend) (ct : CostType) : turningSort.Sorts ∧
    (turningSort (FlatLine ℚ) (fun a b => decide (a.item ≤ b.item)) [⟨0, "a", 0, 1⟩, ⟨0, "b", 0, 1⟩] = [⟨0, "b", 0, 1⟩, ⟨0, "a", 0, 1⟩]) ∧
    ∃ A : ActionSet ℚ, A.Reachable exExt ∧ ∀ o : Oracle ℚ, o.Exact → ∃ fs' : Flipset ℚ,
      (mkFlipset be A [0, 0] [1, 2] (-1) none).populateBy turningSort exExt o 5 none .distinctSubsets ct = some (fs', .ok ()) ∧
      fs'.ReachableBy turningSort exExt (some [.size, .cost, .scoreNew]) ∧
      ∃ i ∈ fs'.items, i.actions = some [1, 1] := by
  refine ⟨turningSort_sorts, by decide +kernel, ?_⟩
  obtain ⟨A, c, hA, -, -, -, -, -, -, h⟩ := C49_example be ct
  refine ⟨A, hA, fun o ho => ?_⟩
  obtain ⟨f, hp, -, -, hi, -⟩ := h o ho
  rcases populateBy_cases (ext := exExt) (o := o) turningSort_sorts (mkFlipset be A [0, 0] [1, 2] (-1) none) 5 none .distinctSubsets ct
    with ⟨-, h2⟩ | ⟨f1, f2, r', h1, h2, h3⟩
  · rw [hp] at h2; cases h2
  · rw [hp] at h2; cases h2
    refine ⟨f1, h1, .populate (.mk ..) h1, ?_⟩
    rw [h3.items.1]
    exact hi [1, 1] (by simp)

end Recourse
