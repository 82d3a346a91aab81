import Verif.Lemmas.ActionSet
import Verif.Props.FlipEx

/-!
# The order of the people in the data does not matter (C82)
-/

set_option linter.unusedSectionVars false

namespace Recourse

variable {K : Type} [Field K] [LinearOrder K] [IsStrictOrderedRing K] [FloorRing K]

theorem npSort_perm {l l' : List K} (h : l.Perm l') : npSort l = npSort l' := by
  unfold npSort
  refine List.Perm.eq_of_pairwise (le := (· ≤ ·)) ?_ (List.pairwise_insertionSort ..) (List.pairwise_insertionSort ..) ?_
  · intro a b _ _ h1 h2; exact le_antisymm h1 h2
  · exact ((List.perm_insertionSort _ l).trans h).trans (List.perm_insertionSort _ l').symm

theorem all_perm {α : Type} {l l' : List α} (h : l.Perm l') (p : α → Bool) : l.all p = l'.all p := by
  rw [Bool.eq_iff_iff, List.all_eq_true, List.all_eq_true]
  exact ⟨fun g a ha => g a (h.mem_iff.mpr ha), fun g a ha => g a (h.mem_iff.mp ha)⟩

theorem determineType_perm {l l' : List K} (h : l.Perm l') : determineType l = determineType l' := by
  unfold determineType
  rw [all_perm h, all_perm h]

theorem mkColumn_perm {X X' : List (List K)} (h : X.Perm X') (custom : List (String × PyVal K)) (dflt st : PyVal K)
    (j : ℕ) (n : String) : mkColumn X custom dflt st j n = mkColumn X' custom dflt st j n := by
  have hc : (column X j).Perm (column X' j) := h.map _
  unfold mkColumn
  dsimp only
  have e : ∀ b vt ty sd ss, mkElem n (column X j) b vt true ty sd ss = mkElem n (column X' j) b vt true ty sd ss := by
    intro b vt ty sd ss
    unfold mkElem
    rw [npSort_perm hc]
  rw [determineType_perm hc]
  cases determineType (column X' j) <;> dsimp only <;> exact e ..

/-- **C82.**  The order of the rows of the data does not matter: the same people in another order give the same action
set (or the same error), and with it the same answers everywhere. -/
theorem C82_row_order {X X' : List (List K)} (h : X.Perm X') (names : List String) (y : Int)
    (custom : List (String × PyVal K)) (dflt st : PyVal K) :
    mkActionSet X names y custom dflt st = mkActionSet X' names y custom dflt st := by
  unfold mkActionSet
  rw [h.length_eq, all_perm h]
  simp only [mkColumn_perm h]

/-- Non-vacuity of C82: a real feature and a binary one, three people in two orders. -/
example : [[(1 : ℚ) / 2, 0], [3, 1], [2, 1]].Perm [[3, 1], [2, 1], [1 / 2, 0]] ∧
    (∃ A : ActionSet ℚ, mkActionSet [[1 / 2, 0], [3, 1], [2, 1]] ["a", "b"] 1 [] defaultBounds (.str "relative") = .ok A ∧
      A.elems.map (·.vtype) = [.float, .bool]) := by
  decide +kernel

end Recourse
