import Verif.Props.Audit
import Verif.Model.Report

/-!
# C54, C79: the audit report
-/

set_option linter.unusedSectionVars false

namespace Recourse

variable {K : Type} [Field K] [LinearOrder K] [IsStrictOrderedRing K] [FloorRing K]
  {ι : Type} [DecidableEq ι] {T : List (ι × AuditRow K)} {X : List (ι × List K)} {y : List (ι × K)}

/-! ## Specification -/

/-- The three tables have the same labels (as the table of an audit of `X` has those of `X`, `C44_rows`). -/
def SameLabels (T : List (ι × AuditRow K)) (X : List (ι × List K)) (y : List (ι × K)) : Prop :=
  T.map (·.1) = X.map (·.1) ∧ y.map (·.1) = X.map (·.1)

/-- `m` is a median of `l`: at least half of the values are at most `m`, and at least half are at least `m`. -/
def IsMedian (m : K) (l : List K) : Prop :=
  l.length ≤ 2 * l.countP (fun v => decide (v ≤ m)) ∧ l.length ≤ 2 * l.countP (fun v => decide (m ≤ v))

/-- The costs of the people with recourse whose true label is `l`. -/
def costsOf (T : List (ι × AuditRow K)) (y : List (ι × K)) (l : K) : List K :=
  T.filterMap fun e => if (e.1, l) ∈ y ∧ e.2.feasible = some true then e.2.cost.toFin else none

/-! ## Joins -/

theorem joinIdx_countP {α β : Type} (q : ι × (α × β) → Bool) (l : List (ι × α)) (r : List (ι × β)) :
    (joinIdx l r).countP q
      = (l.map fun a => r.countP fun b => decide (b.1 = a.1) && q (a.1, (a.2, b.2))).sum := by
  unfold joinIdx
  rw [List.countP_flatMap]
  congr 1
  apply List.map_congr_left
  intro a _
  rw [Function.comp, List.countP_map, List.countP_filter]
  apply List.countP_congr
  intro b _
  simp [and_comm]

theorem joinIdx_sum {α β : Type} (f : ι → α → ℕ) (l : List (ι × α)) (r : List (ι × β)) :
    ((joinIdx l r).map fun e => f e.1 e.2.1).sum
      = (l.map fun a => (r.countP fun b => decide (b.1 = a.1)) * f a.1 a.2).sum := by
  unfold joinIdx
  induction l with
  | nil => rfl
  | cons a l ih =>
    rw [List.flatMap_cons, List.map_append, List.sum_append, ih, List.map_cons, List.sum_cons, List.map_map]
    have : (fun (e : ι × (α × β)) => f e.1 e.2.1) ∘ (fun b : ι × β => (a.1, (a.2, b.2)))
        = fun _ => f a.1 a.2 := rfl
    rw [this, List.map_const', List.sum_replicate, List.countP_eq_length_filter]
    rfl

/-- How many rows of the joined data have a given property, for all tables. -/
theorem processed_countP (P : ReportRow K → Bool) (T : List (ι × AuditRow K)) (X : List (ι × List K))
    (y : List (ι × K)) :
    (processed T X y).countP P
      = (T.map fun e => (X.countP fun p => decide (p.1 = e.1)) *
          (y.countP fun b => decide (b.1 = e.1) && P ⟨e.2.feasible, e.2.cost.infToNan, b.2⟩)).sum := by
  unfold processed
  rw [List.countP_map, joinIdx_countP]
  exact joinIdx_sum
    (fun i (a : AuditRow K) => y.countP fun b => decide (b.1 = i) && P ⟨a.feasible, a.cost.infToNan, b.2⟩) T X

theorem countP_label_one {α : Type} {r : List (ι × α)} (hn : (r.map (·.1)).Nodup) (q : ι × α → Bool) (i : ι) :
    (r.countP fun b => decide (b.1 = i) && q b) = if r.any (fun b => decide (b.1 = i) && q b) then 1 else 0 := by
  induction r with
  | nil => rfl
  | cons b r ih =>
    rw [List.map_cons, List.nodup_cons] at hn
    rw [List.countP_cons, ih hn.2, List.any_cons]
    by_cases hb : b.1 = i
    · have h0 : r.any (fun b => decide (b.1 = i) && q b) = false := by
        rw [List.any_eq_false]
        intro c hc hh
        rw [Bool.and_eq_true, decide_eq_true_eq] at hh
        exact hn.1 (List.mem_map.mpr ⟨c, hc, hh.1.trans hb.symm⟩)
      rw [h0]
      simp [hb]
    · rw [decide_eq_false hb, Bool.false_and, Bool.false_or]
      simp

theorem sum_ite_countB {α : Type} (l : List α) (p : α → Bool) :
    (l.map fun e => if p e then 1 else 0).sum = l.countP p := by
  induction l with
  | nil => rfl
  | cons a l ih =>
    rw [List.map_cons, List.sum_cons, List.countP_cons, ih]
    omega

/-- With distinct labels in `X` and `y`, the joined data has one row for each person who occurs in all three
tables. -/
theorem processed_distinct (hX : (X.map (·.1)).Nodup) (hy : (y.map (·.1)).Nodup) (P : ReportRow K → Bool) :
    (processed T X y).countP P
      = T.countP fun e => decide (e.1 ∈ X.map (·.1)) &&
          y.any fun b => decide (b.1 = e.1) && P ⟨e.2.feasible, e.2.cost.infToNan, b.2⟩ := by
  rw [processed_countP, ← sum_ite_countB]
  congr 1
  apply List.map_congr_left
  intro e _
  rw [countP_label_one hy (fun b => P ⟨e.2.feasible, e.2.cost.infToNan, b.2⟩)]
  have h := countP_label_one hX (fun _ => true) e.1
  simp only [Bool.and_true] at h
  rw [h]
  by_cases hm : e.1 ∈ X.map (·.1)
  · have : X.any (fun b => decide (b.1 = e.1)) = true := by
      rw [List.any_eq_true]
      obtain ⟨p, hp, he⟩ := List.mem_map.mp hm
      exact ⟨p, hp, by simp [he]⟩
    rw [this, decide_eq_true hm, Bool.true_and, if_pos rfl, Nat.one_mul]
  · have : X.any (fun b => decide (b.1 = e.1)) = false := by
      rw [List.any_eq_false]
      intro p hp he
      exact hm (List.mem_map.mpr ⟨p, hp, by simpa using he⟩)
    rw [this, decide_eq_false hm, Bool.false_and]
    simp

theorem any_label (l : K) (i : ι) (c : Bool) :
    (y.any fun b => decide (b.1 = i) && (decide (b.2 = l) && c)) = (decide ((i, l) ∈ y) && c) := by
  cases c with
  | false => simp
  | true =>
    simp only [Bool.and_true]
    by_cases h : (i, l) ∈ y
    · rw [decide_eq_true h, List.any_eq_true]
      exact ⟨_, h, by simp⟩
    · rw [decide_eq_false h, List.any_eq_false]
      rintro ⟨j, v⟩ hb hh
      rw [Bool.and_eq_true, decide_eq_true_eq, decide_eq_true_eq] at hh
      obtain ⟨rfl, rfl⟩ := hh
      exact h hb

/-! ## C54 -/

theorem processed_row {r : ReportRow K} (h : r ∈ processed T X y) :
    ∃ e ∈ T, r.feasible = e.2.feasible ∧ r.cost = e.2.cost.infToNan ∧ (e.1, r.y) ∈ y := by
  unfold processed joinIdx at h
  obtain ⟨a, ha, rfl⟩ := List.mem_map.mp h
  obtain ⟨b, hb, ha⟩ := List.mem_flatMap.mp ha
  obtain ⟨e, he, hb⟩ := List.mem_flatMap.mp hb
  obtain ⟨p, hp, rfl⟩ := List.mem_map.mp hb
  obtain ⟨v, hv, rfl⟩ := List.mem_map.mp ha
  obtain ⟨hv1, hv2⟩ := List.mem_filter.mp hv
  refine ⟨e, he, rfl, rfl, ?_⟩
  have : v.1 = e.1 := by simpa using hv2
  dsimp only
  rw [← this]
  exact hv1

/-- The full C54 is false: for every audit table, data set, label column and label, the printed number of people
without recourse is 0. -/
theorem C54_report_refuted (hs : ∀ e ∈ T, AuditShaped e.2) (X : List (ι × List K)) (y : List (ι × K)) (l : K) :
    (groupCounts (processed T X y) l).noRecourse = 0 := by
  unfold groupCounts
  dsimp only
  rw [List.length_eq_zero_iff, List.filter_eq_nil_iff]
  intro r hr
  obtain ⟨e, he, h1, h2, -⟩ := processed_row hr
  rw [h1, h2]
  rcases hs e he with h | h | ⟨c, h⟩ <;> rw [h] <;> simp [XV.infToNan, XV.isFin]

/-- **C54** (partial).  When nobody's label is repeated, the two other numbers are right: for each label the
report counts the people of that label whose outcome is already the desired one, and those with recourse.
Missing from the full property: the number of those without recourse (`C54_report_refuted`), all labels but
the first, because the report stops with `NameError` after the first (`C79_report_stops`), and repeated index
labels (`C79_size_refuted`). -/
theorem C54_counts_partial (hs : ∀ e ∈ T, AuditShaped e.2) (hl : SameLabels T X y) (hn : (X.map (·.1)).Nodup)
    (l : K) :
    (groupCounts (processed T X y) l).already
      = T.countP (fun e => decide ((e.1, l) ∈ y ∧ e.2.feasible = none)) ∧
    (groupCounts (processed T X y) l).recourse
      = T.countP (fun e => decide ((e.1, l) ∈ y ∧ e.2.feasible = some true)) := by
  have hy : (y.map (·.1)).Nodup := by rw [hl.2]; exact hn
  have hm : ∀ e ∈ T, e.1 ∈ X.map (·.1) := fun e he => hl.1 ▸ List.mem_map.mpr ⟨e, he, rfl⟩
  unfold groupCounts
  dsimp only
  constructor
  · rw [← List.countP_eq_length_filter, processed_distinct hn hy]
    apply List.countP_congr
    intro e he
    simp only [Bool.and_assoc, any_label, hm e he, decide_true, Bool.true_and]
    rcases hs e he with h | h | ⟨c, h⟩ <;> rw [h] <;> simp [XV.infToNan, XV.isNan]
  · rw [← List.countP_eq_length_filter, processed_distinct hn hy]
    apply List.countP_congr
    intro e he
    simp only [hm e he, decide_true, Bool.true_and]
    simp

/-- The report prints one group and stops with an error; with a column called `feasible`, `cost` or `y` in `X`
it prints no group at all. -/
theorem C79_report_stops (T : List (ι × AuditRow K)) (X : List (ι × List K)) (y : List (ι × K)) (cols : List String)
    (l : K) (ls : List K) :
    (("feasible" ∈ cols ∨ "cost" ∈ cols ∨ "y" ∈ cols) →
      report T cols X y (l :: ls) = ((processed T X y).length, [], .error .key)) ∧
    (¬ ("feasible" ∈ cols ∨ "cost" ∈ cols ∨ "y" ∈ cols) →
      report T cols X y (l :: ls)
        = ((processed T X y).length, [(l, groupCounts (processed T X y) l)], .error .name)) := by
  constructor <;> intro h <;> simp only [report, h, if_true, if_false]

/-! ## C79 -/

/-- **C79** (partial), size.  When nobody's label is repeated, the printed size of the data set is the number of
people audited. -/
theorem C79_size_partial (hl : SameLabels T X y) (hn : (X.map (·.1)).Nodup) (cols : List String) (ys : List K) :
    (report T cols X y ys).1 = X.length := by
  have hy : (y.map (·.1)).Nodup := by rw [hl.2]; exact hn
  have h1 : (report T cols X y ys).1 = (processed T X y).length := by
    cases ys with
    | nil => rfl
    | cons l ls => unfold report; dsimp only; split <;> rfl
  rw [h1]
  have h2 := processed_distinct (T := T) hn hy (fun _ => true)
  rw [List.countP_true] at h2
  rw [h2]
  have h3 : T.countP (fun e => decide (e.1 ∈ X.map (·.1)) && y.any fun b => decide (b.1 = e.1) && true)
      = T.length := by
    rw [List.countP_eq_length]
    intro e he
    have hm : e.1 ∈ X.map (·.1) := hl.1 ▸ List.mem_map.mpr ⟨e, he, rfl⟩
    have hm' := hm
    rw [← hl.2] at hm'
    obtain ⟨b, hb, hbe⟩ := List.mem_map.mp hm'
    rw [Bool.and_eq_true, decide_eq_true_eq]
    refine ⟨hm, ?_⟩
    rw [List.any_eq_true]
    exact ⟨b, hb, by simp [hbe]⟩
  rw [h3, ← List.length_map (as := T) (·.1), hl.1, List.length_map]

theorem countP_label {α : Type} (r : List (ι × α)) (i : ι) :
    (r.countP fun b => decide (b.1 = i)) = (r.map (·.1)).count i := by
  rw [List.count, List.countP_map]
  apply List.countP_congr
  intro b _
  simp

/-- For all tables: every person is counted as often as his label occurs in `X`, times as often as it occurs in
`y`. -/
theorem C79_size_exact (cols : List String) (T : List (ι × AuditRow K)) (X : List (ι × List K)) (y : List (ι × K))
    (ys : List K) :
    (report T cols X y ys).1
      = (T.map fun e => (X.map (·.1)).count e.1 * (y.map (·.1)).count e.1).sum := by
  have h1 : (report T cols X y ys).1 = (processed T X y).length := by
    cases ys with
    | nil => rfl
    | cons l ls => unfold report; dsimp only; split <;> rfl
  have h2 := processed_countP (fun _ => true) T X y
  rw [List.countP_true] at h2
  rw [h1, h2]
  congr 1
  apply List.map_congr_left
  intro e _
  simp only [Bool.and_true, countP_label]

theorem sum_gt {α : Type} (f : α → ℕ) (l : List α) (h1 : ∀ a ∈ l, 1 ≤ f a) (h2 : ∃ a ∈ l, 1 < f a) :
    l.length < (l.map f).sum := by
  induction l with
  | nil => obtain ⟨a, ha, -⟩ := h2; cases ha
  | cons b l ih =>
    rw [List.length_cons, List.map_cons, List.sum_cons]
    have hb := h1 b (List.mem_cons_self ..)
    have hle : l.length ≤ (l.map f).sum := by
      have := List.length_le_sum_of_one_le (l.map f) (by
        intro i hi
        obtain ⟨a, ha, rfl⟩ := List.mem_map.mp hi
        exact h1 a (List.mem_cons_of_mem _ ha))
      simpa using this
    obtain ⟨a, ha, hfa⟩ := h2
    rcases List.mem_cons.mp ha with rfl | ha
    · omega
    · have := ih (fun a ha => h1 a (List.mem_cons_of_mem _ ha)) ⟨a, ha, hfa⟩
      omega

/-- The full C79 is false: whenever some label is repeated in `X` (so also in its audit and in `y`), the printed
size is larger than the number of people audited. -/
theorem C79_size_refuted (hl : SameLabels T X y) (hn : ¬ (X.map (·.1)).Nodup) (cols : List String) (ys : List K) :
    X.length < (report T cols X y ys).1 := by
  have hlen : X.length = T.length := by
    rw [← List.length_map (as := X) (·.1), ← hl.1, List.length_map]
  rw [C79_size_exact, hlen, hl.2]
  have hpos : ∀ e ∈ T, 1 ≤ (X.map (·.1)).count e.1 := by
    intro e he
    rw [Nat.one_le_iff_ne_zero, Ne, List.count_eq_zero, not_not, ← hl.1]
    exact List.mem_map.mpr ⟨e, he, rfl⟩
  apply sum_gt
  · intro e he
    exact Nat.mul_pos (hpos e he) (hpos e he)
  · rw [List.nodup_iff_count_le_one] at hn
    push Not at hn
    obtain ⟨i, hi⟩ := hn
    have hmem : i ∈ T.map (·.1) := by
      rw [hl.1]
      exact List.count_pos_iff.mp (by omega)
    obtain ⟨e, he, rfl⟩ := List.mem_map.mp hmem
    exact ⟨e, he, by nlinarith⟩

/-! ### Costs -/

theorem countP_filterMap_count (l : List (ReportRow K)) (p : ReportRow K → Bool) (c : K) :
    ((l.filter p).filterMap (·.cost.toFin)).count c
      = l.countP fun r => p r && decide (r.cost.toFin = some c) := by
  induction l with
  | nil => rfl
  | cons r l ih =>
    rw [List.countP_cons, List.filter_cons]
    cases hp : p r with
    | false => simpa using ih
    | true =>
      rw [if_pos rfl, List.filterMap_cons]
      cases hc : r.cost.toFin with
      | none => simpa using ih
      | some d =>
        dsimp only
        rw [List.count_cons, ih]
        simp

theorem costsOf_count (T : List (ι × AuditRow K)) (y : List (ι × K)) (l c : K) :
    (costsOf T y l).count c
      = T.countP fun e => decide (((e.1, l) ∈ y ∧ e.2.feasible = some true) ∧ e.2.cost.toFin = some c) := by
  unfold costsOf
  induction T with
  | nil => rfl
  | cons e T ih =>
    rw [List.countP_cons, List.filterMap_cons]
    by_cases h : (e.1, l) ∈ y ∧ e.2.feasible = some true
    · rw [if_pos h]
      cases hc : e.2.cost.toFin with
      | none => simpa [hc] using ih
      | some d =>
        dsimp only
        rw [List.count_cons, ih]
        simp [h]
    · rw [if_neg h]
      dsimp only
      rw [ih]
      simp [h]

theorem groupCosts_perm (hl : SameLabels T X y) (hn : (X.map (·.1)).Nodup) (l : K) :
    (groupCosts (processed T X y) l).Perm (costsOf T y l) := by
  have hy : (y.map (·.1)).Nodup := by rw [hl.2]; exact hn
  have hm : ∀ e ∈ T, e.1 ∈ X.map (·.1) := fun e he => hl.1 ▸ List.mem_map.mpr ⟨e, he, rfl⟩
  rw [List.perm_iff_count]
  intro c
  rw [costsOf_count]
  unfold groupCosts
  rw [countP_filterMap_count, processed_distinct hn hy]
  apply List.countP_congr
  intro e he
  simp only [Bool.and_assoc, hm e he, decide_true, Bool.true_and]
  cases e.2.cost <;> simp [XV.infToNan, XV.toFin, and_assoc]

/-! ### Medians -/

theorem getD_eq' (s : List K) {k : ℕ} (hk : k < s.length) : s.getD k 0 = s[k] := by
  rw [List.getD_eq_getElem?_getD, List.getElem?_eq_getElem hk]; rfl

theorem sorted_countP_le {s : List K} (hs : s.Pairwise (· ≤ ·)) {k : ℕ} (hk : k < s.length) {a : K} :
    (s[k] ≤ a → k + 1 ≤ s.countP fun v => decide (v ≤ a)) ∧
    (a < s[k] → (s.countP fun v => decide (v ≤ a)) ≤ k) := by
  constructor
  · intro h
    have h1 : (s.take (k + 1)).countP (fun v => decide (v ≤ a)) = (s.take (k + 1)).length := by
      rw [List.countP_eq_length]
      intro v hv
      obtain ⟨j, hj, rfl⟩ := List.mem_iff_getElem.mp hv
      rw [List.length_take] at hj
      rw [List.getElem_take, decide_eq_true_eq]
      refine le_trans ?_ h
      rcases Nat.lt_or_ge j k with hjk | hjk
      · exact List.pairwise_iff_getElem.mp hs j k (by omega) hk hjk
      · have : j = k := by omega
        subst this; exact le_refl _
    have h2 := (List.take_sublist (k + 1) s).countP_le (p := fun v => decide (v ≤ a))
    rw [h1, List.length_take] at h2
    omega
  · intro h
    have h0 : (s.drop k).countP (fun v => decide (v ≤ a)) = 0 := by
      rw [List.countP_eq_zero]
      intro v hv
      obtain ⟨j, hj, rfl⟩ := List.mem_iff_getElem.mp hv
      rw [List.length_drop] at hj
      rw [List.getElem_drop, decide_eq_true_eq, not_le]
      refine lt_of_lt_of_le h ?_
      rcases Nat.eq_zero_or_pos j with rfl | hj0
      · exact le_refl _
      · exact List.pairwise_iff_getElem.mp hs k (k + j) hk (by omega) (by omega)
    have h1 : s.countP (fun v => decide (v ≤ a))
        = (s.take k).countP (fun v => decide (v ≤ a)) + (s.drop k).countP (fun v => decide (v ≤ a)) := by
      rw [← List.countP_append, List.take_append_drop]
    have h2 := List.countP_le_length (p := fun v => decide (v ≤ a)) (l := s.take k)
    rw [List.length_take] at h2
    omega

theorem sorted_countP_ge {s : List K} (hs : s.Pairwise (· ≤ ·)) {k : ℕ} (hk : k < s.length) {a : K} :
    (a ≤ s[k] → s.length - k ≤ s.countP fun v => decide (a ≤ v)) ∧
    (s[k] < a → (s.countP fun v => decide (a ≤ v)) ≤ s.length - (k + 1)) := by
  constructor
  · intro h
    have h1 : (s.drop k).countP (fun v => decide (a ≤ v)) = (s.drop k).length := by
      rw [List.countP_eq_length]
      intro v hv
      obtain ⟨j, hj, rfl⟩ := List.mem_iff_getElem.mp hv
      rw [List.length_drop] at hj
      rw [List.getElem_drop, decide_eq_true_eq]
      refine le_trans h ?_
      rcases Nat.eq_zero_or_pos j with rfl | hj0
      · exact le_refl _
      · exact List.pairwise_iff_getElem.mp hs k (k + j) hk (by omega) (by omega)
    have h2 := (List.drop_sublist k s).countP_le (p := fun v => decide (a ≤ v))
    rw [h1, List.length_drop] at h2
    omega
  · intro h
    have h0 : (s.take (k + 1)).countP (fun v => decide (a ≤ v)) = 0 := by
      rw [List.countP_eq_zero]
      intro v hv
      obtain ⟨j, hj, rfl⟩ := List.mem_iff_getElem.mp hv
      rw [List.length_take] at hj
      rw [List.getElem_take, decide_eq_true_eq, not_le]
      refine lt_of_le_of_lt ?_ h
      rcases Nat.lt_or_ge j k with hjk | hjk
      · exact List.pairwise_iff_getElem.mp hs j k (by omega) hk hjk
      · have : j = k := by omega
        subst this; exact le_refl _
    have h1 : s.countP (fun v => decide (a ≤ v))
        = (s.take (k + 1)).countP (fun v => decide (a ≤ v))
          + (s.drop (k + 1)).countP (fun v => decide (a ≤ v)) := by
      rw [← List.countP_append, List.take_append_drop]
    have h2 := List.countP_le_length (p := fun v => decide (a ≤ v)) (l := s.drop (k + 1))
    rw [List.length_drop] at h2
    omega

/-- The median printed is the midpoint of the medians. -/
theorem medianOf_spec {l : List K} (hl : l ≠ []) :
    ∃ lo hi : K, medianOf l = (lo + hi) / 2 ∧ ∀ a, IsMedian a l ↔ lo ≤ a ∧ a ≤ hi := by
  have hp : (l.insertionSort (· ≤ ·)).Perm l := List.perm_insertionSort _ _
  have hs : (l.insertionSort (· ≤ ·)).Pairwise (· ≤ ·) := List.pairwise_insertionSort _ _
  have hmed : ∀ a, IsMedian a l ↔ IsMedian a (l.insertionSort (· ≤ ·)) := by
    intro a
    unfold IsMedian
    rw [hp.length_eq, hp.countP_eq, hp.countP_eq]
  have hpos : 0 < (l.insertionSort (· ≤ ·)).length := by
    rw [hp.length_eq]; exact List.length_pos_iff.mpr hl
  have hval : medianOf l = ((l.insertionSort (· ≤ ·)).getD (((l.insertionSort (· ≤ ·)).length - 1) / 2) 0
      + (l.insertionSort (· ≤ ·)).getD ((l.insertionSort (· ≤ ·)).length / 2) 0) / 2 := by
    unfold medianOf
    dsimp only
    split
    · rename_i h
      have : ((l.insertionSort (· ≤ ·)).length - 1) / 2 = (l.insertionSort (· ≤ ·)).length / 2 := by omega
      rw [this]; ring
    · rename_i h
      have : ((l.insertionSort (· ≤ ·)).length - 1) / 2 = (l.insertionSort (· ≤ ·)).length / 2 - 1 := by omega
      rw [this]
  rw [hval]
  simp only [hmed]
  generalize l.insertionSort (· ≤ ·) = s at *
  have hk1 : (s.length - 1) / 2 < s.length := by omega
  have hk2 : s.length / 2 < s.length := by omega
  refine ⟨_, _, rfl, fun a => ?_⟩
  rw [getD_eq' s hk1, getD_eq' s hk2]
  obtain ⟨a1, a2⟩ := sorted_countP_le hs hk1 (a := a)
  obtain ⟨b1, b2⟩ := sorted_countP_ge hs hk2 (a := a)
  unfold IsMedian
  constructor
  · rintro ⟨h1, h2⟩
    constructor
    · by_contra hc
      have := a2 (not_le.mp hc)
      omega
    · by_contra hc
      have := b2 (not_le.mp hc)
      omega
  · rintro ⟨h1, h2⟩
    have := a1 h1
    have := b1 h2
    omega

/-- **C79** (partial), costs.  When nobody's label is repeated, the numbers printed for a group are the mean, the
median (the midpoint, when there is more than one) and the number of the costs of the people of that label
with recourse; nothing is printed exactly when there are none.  Missing from the full property: repeated
labels (`C79_size_refuted`), and the labels after the first (`C79_report_stops`). -/
theorem C79_costs_partial (hl : SameLabels T X y) (hn : (X.map (·.1)).Nodup) (l : K) :
    ((groupCounts (processed T X y) l).stats = none ↔ costsOf T y l = []) ∧
    ∀ m md n, (groupCounts (processed T X y) l).stats = some (m, md, n) →
      n = (costsOf T y l).length ∧ m * n = (costsOf T y l).sum ∧
      ∃ lo hi : K, md = (lo + hi) / 2 ∧ ∀ a, IsMedian a (costsOf T y l) ↔ lo ≤ a ∧ a ≤ hi := by
  have hp := groupCosts_perm (T := T) hl hn l
  have hst : (groupCounts (processed T X y) l).stats
      = if (groupCosts (processed T X y) l).isEmpty then none else
        some (meanOf (groupCosts (processed T X y) l), medianOf (groupCosts (processed T X y) l),
          (groupCosts (processed T X y) l).length) := rfl
  rw [hst]
  by_cases he : groupCosts (processed T X y) l = []
  · rw [he] at hp ⊢
    rw [List.nil_perm] at hp
    rw [hp]
    refine ⟨by simp, ?_⟩
    intro m md n h
    simp at h
  · have hne : costsOf T y l ≠ [] := by
      intro h
      rw [h, List.perm_nil] at hp
      exact he hp
    have hie : (groupCosts (processed T X y) l).isEmpty = false := by
      rw [← Bool.not_eq_true, List.isEmpty_iff]; exact he
    rw [hie]
    refine ⟨by simp [hne], ?_⟩
    intro m md n h
    simp only [Bool.false_eq_true, if_false, Option.some.injEq, Prod.mk.injEq] at h
    obtain ⟨rfl, rfl, rfl⟩ := h
    refine ⟨hp.length_eq, ?_, ?_⟩
    · unfold meanOf
      rw [div_mul_cancel₀, hp.sum_eq]
      rw [Nat.cast_ne_zero]
      exact fun h => he (List.length_eq_zero_iff.mp h)
    · obtain ⟨lo, hi, h1, h2⟩ := medianOf_spec he
      refine ⟨lo, hi, h1, fun a => ?_⟩
      rw [← h2 a]
      unfold IsMedian
      rw [hp.length_eq, hp.countP_eq, hp.countP_eq]

/-- The table of an audit of `X` and a column of labels with the index of `X` meet the hypotheses above. -/
theorem audit_sameLabels {ext : Ext K} {o : Oracle K} {ad ad' : Auditor K} {yd : Int} (hr : ad.Reachable ext)
    (h : ad.audit ext o X yd = (ad', .ok T)) (hy : y.map (·.1) = X.map (·.1)) :
    SameLabels T X y ∧ ∀ e ∈ T, AuditShaped e.2 :=
  ⟨⟨(C44_rows hr h).1, hy⟩, audit_shaped hr h⟩

/-! ## Non-vacuity -/

/-- Five people with label 1, one whose outcome is already the desired one, one without recourse, and three with
recourse. -/
def exReport : List (ℕ × AuditRow ℚ) :=
  [(4, ⟨none, .nan⟩), (7, ⟨some false, .inf⟩), (2, ⟨some true, .fin 1⟩), (3, ⟨some true, .fin 5⟩),
    (1, ⟨some true, .fin 3⟩), (9, ⟨some true, .fin 2⟩)]

/-- Their data. -/
def exReportX : List (ℕ × List ℚ) := exReport.map fun e => (e.1, [1])

/-- Their labels. -/
def exReportY : List (ℕ × ℚ) := exReport.map fun e => (e.1, if e.1 = 9 then 0 else 1)

theorem exReport_shaped : ∀ e ∈ exReport, AuditShaped e.2 := by
  intro e he
  simp only [exReport, List.mem_cons, List.not_mem_nil, or_false] at he
  rcases he with rfl | rfl | rfl | rfl | rfl | rfl
  · exact Or.inl rfl
  · exact Or.inr (Or.inl rfl)
  all_goals exact Or.inr (Or.inr ⟨_, rfl⟩)

/-- Non-vacuity of C54 and C79: "already" and "recourse" are right, and so should be the number without recourse,
but it is 0. -/
example : (∀ e ∈ exReport, AuditShaped e.2) ∧ SameLabels exReport exReportX exReportY ∧
    (exReportX.map (·.1)).Nodup ∧
    report exReport ["age"] exReportX exReportY [1, 0] = (6, [(1, ⟨1, 0, 3, some (3, 3, 3)⟩)], .error .name) ∧
    exReport.countP (fun e => decide (e.2.feasible = some false)) = 1 := by
  refine ⟨exReport_shaped, ⟨by decide +kernel, by decide +kernel⟩, by decide +kernel, by decide +kernel,
    by decide +kernel⟩

/-- Two people with the same index label are reported as eight. -/
example : SameLabels [(0, ⟨none, .nan⟩), (0, ⟨some true, .fin (1 : ℚ)⟩)] [(0, [1]), (0, [2])] [(0, 1), (0, 1)] ∧
    ¬ ([(0, [1]), (0, [(2 : ℚ)])].map (·.1)).Nodup ∧
    report [(0, ⟨none, .nan⟩), (0, ⟨some true, .fin (1 : ℚ)⟩)] [] [(0, [1]), (0, [2])] [(0, 1), (0, 1)] [1]
      = (8, [(1, ⟨4, 0, 4, some (1, 1, 4)⟩)], .error .name) := by
  refine ⟨⟨by decide +kernel, by decide +kernel⟩, by decide +kernel, by decide +kernel⟩

end Recourse
