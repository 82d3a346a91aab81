import Verif.Model.Render
import Verif.Props.FlipFlat

/-!
# Property C101: rendered flipsets
-/

set_option linter.unusedSectionVars false

namespace Recourse

variable {K : Type} [Field K] [LinearOrder K] [IsStrictOrderedRing K] [FloorRing K]
  {ext : Ext K} {fs : Flipset K} {ord : Option (List SortCol)}

/-! ## Specification -/

/-- A text shows the number `x`: without decimals exactly if `x` is an integer. -/
def Shows (v : PyVal K) (x : K) : Prop :=
  (∃ z : ℤ, v = .int z ∧ (z : K) = x) ∨ (v = .flt x ∧ ∀ z : ℤ, (z : K) ≠ x)

/-- The lines of the HTML table for item number `k`: one for each changed feature, numbered from 1. -/
structure HtmlItem (names : List String) (x : List K) (k : ℕ) (i : Info K) (l : List (HtmlLine K)) : Prop where
  len : l.length = (itemLines names x k i).length
  line : ∀ (p : ℕ) (h : HtmlLine K) (q : FlatLine K), l[p]? = some h → (itemLines names x k i)[p]? = some q →
    h.item = k ∧ h.row = p + 1 ∧ h.feature = q.feature ∧ Shows h.current q.current ∧ Shows h.required q.required ∧
    (h.white = true ↔ k % 2 = 1)

/-! ## Values -/

theorem valueText_shows (x : K) : Shows (valueText x) x := by
  unfold valueText
  by_cases h : ((intOf x : ℤ) : K) = x
  · rw [if_pos h]; exact Or.inl ⟨_, rfl, h⟩
  · rw [if_neg h]
    refine Or.inr ⟨rfl, fun z hz => h ?_⟩
    subst hz
    unfold intOf
    simp

/-! ## Lines -/

theorem itemLines_item {names : List String} {x : List K} {k : ℕ} {i : Info K} {l : FlatLine K}
    (h : l ∈ itemLines names x k i) : l.item = k := by
  unfold itemLines at h
  cases ha : i.actions with
  | none => rw [ha] at h; simp at h
  | some a =>
    rw [ha] at h
    obtain ⟨j, -, rfl⟩ := List.mem_map.mp h
    rfl

/-- The html lines of a block that starts after `pre`, none of whose lines has the block's item number. -/
def htmlFrom (l : List (FlatLine K)) (off : ℕ) (b : List (FlatLine K)) : List (HtmlLine K) :=
  (b.zipIdx off).map fun (p : FlatLine K × ℕ) =>
    { item := p.1.item, row := (l.take p.2).countP (fun q => decide (q.item = p.1.item)) + 1,
      feature := p.1.feature, current := valueText p.1.current, required := valueText p.1.required,
      white := isWhite p.1.item }

theorem htmlFrom_append (l : List (FlatLine K)) (off : ℕ) (b c : List (FlatLine K)) :
    htmlFrom l off (b ++ c) = htmlFrom l off b ++ htmlFrom l (off + b.length) c := by
  unfold htmlFrom
  rw [List.zipIdx_append, List.map_append]

theorem htmlFrom_block {names : List String} {x : List K} {pre post : List (FlatLine K)} {k : ℕ} {i : Info K}
    (hpre : ∀ q ∈ pre, q.item ≠ k) :
    HtmlItem names x k i (htmlFrom (pre ++ (itemLines names x k i ++ post)) pre.length (itemLines names x k i)) := by
  set b := itemLines names x k i with hb
  refine ⟨by unfold htmlFrom; simp [hb], fun p h q hp hq => ?_⟩
  unfold htmlFrom at hp
  rw [List.getElem?_map, List.getElem?_zipIdx, hq] at hp
  simp only [Option.map_some, Option.some.injEq] at hp
  subst hp
  have hk : q.item = k := itemLines_item (List.mem_of_getElem? hq)
  have hpl : p < b.length := (List.getElem?_eq_some_iff.mp hq).1
  refine ⟨hk, ?_, rfl, valueText_shows _, valueText_shows _, ?_⟩
  · dsimp only
    rw [List.take_append, List.take_append, List.countP_append, List.countP_append]
    have h1 : List.countP (fun q_1 => decide (q_1.item = q.item)) (List.take (pre.length + p) pre) = 0 := by
      rw [List.countP_eq_zero]
      intro r hr
      rw [hk]
      simpa using hpre r (List.mem_of_mem_take hr)
    have h2 : pre.length + p - pre.length = p := by omega
    have h3 : p - b.length = 0 := by omega
    rw [h1, h2, h3, List.take_zero]
    have h4 : List.countP (fun q_1 => decide (q_1.item = q.item)) (b.take p) = p := by
      rw [List.countP_eq_length.mpr, List.length_take]
      · omega
      · intro r hr
        rw [hk]
        simpa using itemLines_item (List.mem_of_mem_take hr)
    rw [h4]
    simp
  · dsimp only
    unfold isWhite
    rw [hk]
    simp

theorem htmlLines_blocks {names : List String} {x : List K} (items : List (Info K)) (k : ℕ) (pre : List (FlatLine K))
    (hpre : ∀ q ∈ pre, q.item < k) :
    ∃ bs : List (List (HtmlLine K)), bs.length = items.length ∧
      htmlFrom (pre ++ (items.zipIdx k).flatMap fun p => itemLines names x p.2 p.1) pre.length
        ((items.zipIdx k).flatMap fun p => itemLines names x p.2 p.1) = bs.flatten ∧
      ∀ (j : ℕ) (i : Info K) (b : List (HtmlLine K)), items[j]? = some i → bs[j]? = some b →
        HtmlItem names x (k + j) i b := by
  induction items generalizing k pre with
  | nil => exact ⟨[], rfl, rfl, fun j i b h => by simp at h⟩
  | cons i items ih =>
    rw [List.zipIdx_cons, List.flatMap_cons]
    dsimp only
    set rest := (items.zipIdx (k + 1)).flatMap fun p => itemLines names x p.2 p.1 with hrest
    obtain ⟨bs, h1, h2, h3⟩ := ih (k + 1) (pre ++ itemLines names x k i) (by
      intro q hq
      rcases List.mem_append.mp hq with hq | hq
      · exact Nat.lt_succ_of_lt (hpre q hq)
      · rw [itemLines_item hq]; exact Nat.lt_succ_self k)
    refine ⟨htmlFrom (pre ++ (itemLines names x k i ++ rest)) pre.length (itemLines names x k i) :: bs, by simp [h1], ?_, ?_⟩
    · rw [htmlFrom_append, List.flatten_cons, ← h2, List.length_append, List.append_assoc]
    · intro j i' b hj hb
      cases j with
      | zero =>
        simp only [List.getElem?_cons_zero, Option.some.injEq] at hj hb
        subst hj; subst hb
        exact htmlFrom_block fun q hq => (hpre q hq).ne
      | succ j =>
        simp only [List.getElem?_cons_succ] at hj hb
        have := h3 j i' b hj hb
        rwa [show k + (j + 1) = k + 1 + j by omega]

/-- **C101**, HTML.  `to_html()` never raises.  On a flipset without items it says so; otherwise it shows, for one numbering
of all stored items, the items in the order of their numbers, each with one line per changed feature: its name,
current and required value, without decimals exactly for integers, lines numbered from 1 within the item, and all
lines of an item on the same background, which alternates from item to item.  The call changes neither the items nor
(up to order) the table. -/
theorem C101_html (h : fs.Reachable ext ord) :
    (fs.toHtml.2 = none ↔ fs.items = []) ∧
    (∀ l, fs.toHtml.2 = some l → ∃ (items' : List (Info K)) (bs : List (List (HtmlLine K))), items'.Perm fs.items ∧
      l = bs.flatten ∧ bs.length = items'.length ∧
      ∀ (k : ℕ) (i : Info K) (b : List (HtmlLine K)), items'[k]? = some i → bs[k]? = some b →
        HtmlItem fs.names fs.x k i b) ∧
    fs.toHtml.1.items = fs.items ∧ fs.toHtml.1.rows.Perm fs.rows := by
  have hl := (C49_table (Flipset.Reachable.flat h)).2.2
  obtain ⟨⟨items', hp, hf⟩, hit, hrows⟩ := C60_flat h
  unfold Flipset.len at hl
  rw [hit] at hl
  unfold Flipset.toHtml
  dsimp only
  by_cases he : fs.toFlat.1.rows.isEmpty = true
  · rw [if_pos he]
    rw [List.isEmpty_iff.mp he] at hl
    exact ⟨⟨fun _ => List.length_eq_zero_iff.mp hl, fun _ => rfl⟩, fun l hc => (by cases hc), hit, hrows⟩
  · rw [if_neg he]
    refine ⟨⟨(fun h => by cases h), fun h0 => ?_⟩, fun l hc => ?_, hit, hrows⟩
    · rw [h0] at hl
      exact absurd (List.isEmpty_iff.mpr (List.length_eq_zero_iff.mp hl.symm)) he
    · cases hc
      obtain ⟨bs, h1, h2, h3⟩ := htmlLines_blocks (names := fs.names) (x := fs.x) items' 0 [] (by simp)
      refine ⟨items', bs, hp, ?_, h1, fun k i b hi hb => ?_⟩
      · rw [← h2, ← hf]
        rfl
      · have := h3 k i b hi hb
        rwa [Nat.zero_add] at this

/-- Non-vacuity: after `populate` on the set of `C49_example` the HTML table has lines. -/
example (be : Backend) (ct : CostType) : ∃ A : ActionSet ℚ, A.Reachable exExt ∧
    ∀ o : Oracle ℚ, o.Exact → ∃ fs' : Flipset ℚ,
      (mkFlipset be A [0, 0] [1, 2] (-1) none).Used exExt o fs' ∧
      fs'.Reachable exExt (some [.size, .cost, .scoreNew]) ∧ ∃ l, fs'.toHtml.2 = some l ∧ 3 ≤ fs'.items.length := by
  obtain ⟨A, c, hA, -, -, -, -, -, -, h⟩ := C49_example be ct
  refine ⟨A, hA, fun o ho => ?_⟩
  obtain ⟨fs', -, h2, h3, -, h5⟩ := h o ho
  have hlen : 3 ≤ fs'.items.length := by
    rw [← (C49_table h3).2.2] at h5
    exact h5
  refine ⟨fs', h2, h3, ?_⟩
  cases hl : fs'.toHtml.2 with
  | some l => exact ⟨l, rfl, hlen⟩
  | none =>
    rw [(C101_html h3).1.mp hl] at hlen
    exact absurd hlen (by decide)

/-! ## Names -/

theorem replaceGo_skip (old new : List Char) (s : List Char) (n : ℕ) : replaceGo old new n s = replaceGo old new 0 (s.drop n) := by
  induction n generalizing s with
  | zero => rfl
  | succ n ih =>
    cases s with
    | nil => simp [replaceGo]
    | cons c t => rw [replaceGo, ih]; rfl

theorem replaceGo_absent {old new s : List Char} (h : ¬ old <:+: s) : replaceGo old new 0 s = s := by
  induction s with
  | nil => rfl
  | cons c t ih =>
    have h1 : ¬ old.isPrefixOf (c :: t) = true := fun hc => h (List.isPrefixOf_iff_prefix.mp hc).isInfix
    rw [replaceGo, if_neg h1, ih fun hc => h (hc.trans (List.suffix_cons c t).isInfix)]

theorem replaceGo_self {old new : List Char} (h : old ≠ []) : replaceGo old new 0 old = new := by
  cases old with
  | nil => exact absurd rfl h
  | cons c t =>
    rw [replaceGo, if_pos (List.isPrefixOf_iff_prefix.mpr (List.prefix_refl _)), replaceGo_skip]
    simp [replaceGo]

/-- **C101**, LaTeX, names.  If no name of a variable occurs inside the wrapped name of another one, the cell of each
variable shows its name wrapped exactly once, and cells in which no name occurs are left alone. -/
theorem C101_latex_partial {fmt : List Char} {names : List (List Char)} (hnd : names.Nodup) (hne : [] ∉ names)
    (hsep : ∀ v ∈ names, ∀ u ∈ names, u ≠ v → ¬ u <:+: wrapName fmt v) :
    (∀ v ∈ names, wrapNames fmt names v = wrapName fmt v) ∧
    (∀ cell, (∀ v ∈ names, ¬ v <:+: cell) → wrapNames fmt names cell = cell) := by
  have hkeep : ∀ (ns : List (List Char)) (cell : List Char), (∀ v ∈ ns, ¬ v <:+: cell) → wrapNames fmt ns cell = cell := by
    intro ns
    induction ns with
    | nil => intro cell _; rfl
    | cons u ns ih =>
      intro cell hc
      show wrapNames fmt ns (replaceGo u (wrapName fmt u) 0 cell) = cell
      rw [replaceGo_absent (hc u List.mem_cons_self), ih cell fun v hv => hc v (List.mem_cons_of_mem _ hv)]
  have hin : ∀ v : List Char, v <:+: wrapName fmt v := fun v => ⟨fmt ++ ['{'], ['}'], by simp [wrapName]⟩
  refine ⟨fun v hv => ?_, hkeep names⟩
  obtain ⟨pre, post, rfl⟩ := List.append_of_mem hv
  unfold wrapNames
  rw [List.foldl_append, List.foldl_cons]
  have hnd' := List.nodup_append.mp hnd
  have h1 : wrapNames fmt pre v = v := hkeep pre v fun u hu hc => by
    have hne' : u ≠ v := fun h => (hnd'.2.2 u hu v List.mem_cons_self) h
    exact hsep v hv u (List.mem_append_left _ hu) hne' (hc.trans (hin v))
  have h1 : pre.foldl (fun s v => replaceGo v (wrapName fmt v) 0 s) v = v := h1
  rw [h1, replaceGo_self fun h => hne (h ▸ hv)]
  refine hkeep post _ fun u hu hc => ?_
  have hne' : u ≠ v := fun h => (List.nodup_cons.mp hnd'.2.1).1 (h ▸ hu)
  exact hsep v hv u (List.mem_append_right _ (List.mem_cons_of_mem _ hu)) hne' hc

/-- The names of the data set `credit` satisfy the hypotheses. -/
example : (["Married", "Age_lt_25", "EducationLevel"].map String.toList).Nodup ∧
    [] ∉ ["Married", "Age_lt_25", "EducationLevel"].map String.toList ∧
    ∀ v ∈ ["Married", "Age_lt_25", "EducationLevel"].map String.toList,
      ∀ u ∈ ["Married", "Age_lt_25", "EducationLevel"].map String.toList, u ≠ v → ¬ u <:+: wrapName "\\textit".toList v := by
  decide +kernel

/-- **C101** refuted for LaTeX: with the names `Age` and `AgeGroup` the cell of the second shows `\textit{Age}Group`; a
variable called `it` breaks the names of all variables before it. -/
theorem C101_latex_refuted :
    wrapNames "\\textit".toList (["Age", "AgeGroup"].map String.toList) "AgeGroup".toList = "\\textit{Age}Group".toList ∧
    wrapNames "\\textit".toList (["Age", "it"].map String.toList) "Age".toList = "\\text\\textit{it}{Age}".toList := by
  decide +kernel

end Recourse
