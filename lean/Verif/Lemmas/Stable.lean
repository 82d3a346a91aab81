import Mathlib.Data.List.Sort

/-!
# Insertion sort keeps ties in order
-/

namespace Recourse

variable {α : Type} {r : α → α → Prop} [DecidableRel r]

theorem orderedInsert_class (tr : ∀ a b c, r a b → r b c → r a c) (a x : α) (l : List α) :
    (l.orderedInsert r x).filter (fun y => decide (r y a ∧ r a y)) = (x :: l).filter (fun y => decide (r y a ∧ r a y)) := by
  induction l with
  | nil => rfl
  | cons b l ih =>
    rw [List.orderedInsert_cons]
    by_cases hb : r x b
    · rw [if_pos hb]
    · rw [if_neg hb]
      simp only [List.filter_cons, decide_eq_true_eq] at ih ⊢
      rw [ih]
      by_cases hx : r x a ∧ r a x
      · have hn : ¬ (r b a ∧ r a b) := fun h => hb (tr _ _ _ hx.1 h.2)
        simp only [if_pos hx, if_neg hn]
      · rw [if_neg hx, if_neg hx]

theorem insertionSort_class (tr : ∀ a b c, r a b → r b c → r a c) (a : α) (l : List α) :
    (l.insertionSort r).filter (fun y => decide (r y a ∧ r a y)) = l.filter (fun y => decide (r y a ∧ r a y)) := by
  induction l with
  | nil => rfl
  | cons x l ih => simp only [List.insertionSort_cons, orderedInsert_class tr, List.filter_cons, ih]

/-- Sorted lists with the same ties in the same order are equal. -/
theorem sorted_class_unique (tot : ∀ a b, r a b ∨ r b a) {l l' : List α} (h : l.Pairwise r) (h' : l'.Pairwise r)
    (hc : ∀ a, l.filter (fun y => decide (r y a ∧ r a y)) = l'.filter (fun y => decide (r y a ∧ r a y))) : l = l' := by
  have rf : ∀ a, r a a := fun a => (tot a a).elim id id
  have mem : ∀ {l l' : List α}, (∀ a, l.filter (fun y => decide (r y a ∧ r a y)) = l'.filter (fun y => decide (r y a ∧ r a y))) → ∀ x ∈ l, x ∈ l' := by
    intro l l' hc x hx
    have : x ∈ l.filter (fun y => decide (r y x ∧ r x y)) := List.mem_filter.mpr ⟨hx, by simpa using rf x⟩
    rw [hc x] at this
    exact (List.mem_filter.mp this).1
  induction l generalizing l' with
  | nil =>
    cases l' with
    | nil => rfl
    | cons y l' => exact absurd (mem (fun a => (hc a).symm) y (List.mem_cons_self ..)) (by simp)
  | cons x l ih =>
    cases l' with
    | nil => exact absurd (mem hc x (List.mem_cons_self ..)) (by simp)
    | cons y l' =>
      have hxy : r x y := by
        rcases List.mem_cons.mp (mem (fun a => (hc a).symm) y (List.mem_cons_self ..)) with rfl | hy
        · exact rf _
        · exact List.rel_of_pairwise_cons h hy
      have hyx : r y x := by
        rcases List.mem_cons.mp (mem hc x (List.mem_cons_self ..)) with rfl | hx
        · exact rf _
        · exact List.rel_of_pairwise_cons h' hx
      have e := hc x
      rw [List.filter_cons, if_pos (by simpa using rf x), List.filter_cons, if_pos (by simpa using ⟨hyx, hxy⟩)] at e
      obtain ⟨rfl, -⟩ := List.cons.inj e
      rw [ih (List.Pairwise.of_cons h) (List.Pairwise.of_cons h') fun a => ?_]
      have e := hc a
      rw [List.filter_cons, List.filter_cons] at e
      by_cases ha : r x a ∧ r a x
      · rw [if_pos (by simpa using ha), if_pos (by simpa using ha)] at e
        exact (List.cons.inj e).2
      · rw [if_neg (by simpa using ha), if_neg (by simpa using ha)] at e
        exact e

/-- Sorting a part first makes no difference. -/
theorem insertionSort_absorb (tot : ∀ a b, r a b ∨ r b a) (tr : ∀ a b c, r a b → r b c → r a c) (l l' : List α) :
    (l.insertionSort r ++ l').insertionSort r = (l ++ l').insertionSort r := by
  have : Std.Total r := ⟨tot⟩
  have : IsTrans α r := ⟨tr⟩
  refine sorted_class_unique tot (List.pairwise_insertionSort _ _) (List.pairwise_insertionSort _ _) fun a => ?_
  rw [insertionSort_class tr, insertionSort_class tr, List.filter_append, List.filter_append, insertionSort_class tr]

end Recourse
