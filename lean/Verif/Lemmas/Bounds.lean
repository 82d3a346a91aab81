import Verif.Lemmas.Elem
import Mathlib.Data.List.Sort
import Mathlib.Data.List.GetD

/-! # Minimum, maximum and percentiles of data -/

set_option linter.unusedSectionVars false

namespace Recourse

variable {K : Type} [Field K] [LinearOrder K] [IsStrictOrderedRing K] [FloorRing K]

theorem foldl_min_spec (l : List K) (a : K) :
    (l.foldl min a = a ∨ l.foldl min a ∈ l) ∧ l.foldl min a ≤ a ∧ ∀ v ∈ l, l.foldl min a ≤ v := by
  induction l generalizing a with
  | nil => simp
  | cons b t ih =>
    obtain ⟨h1, h2, h3⟩ := ih (min a b)
    simp only [List.foldl_cons]
    refine ⟨?_, h2.trans (min_le_left _ _), ?_⟩
    · rcases h1 with h1 | h1
      · rcases min_choice a b with h | h
        · left; rw [h1, h]
        · right; rw [h1, h]; exact List.mem_cons_self
      · right; exact List.mem_cons_of_mem _ h1
    · intro v hv
      rcases List.mem_cons.mp hv with rfl | hv
      · exact h2.trans (min_le_right _ _)
      · exact h3 v hv

theorem foldl_max_spec (l : List K) (a : K) :
    (l.foldl max a = a ∨ l.foldl max a ∈ l) ∧ a ≤ l.foldl max a ∧ ∀ v ∈ l, v ≤ l.foldl max a := by
  induction l generalizing a with
  | nil => simp
  | cons b t ih =>
    obtain ⟨h1, h2, h3⟩ := ih (max a b)
    simp only [List.foldl_cons]
    refine ⟨?_, (le_max_left _ _).trans h2, ?_⟩
    · rcases h1 with h1 | h1
      · rcases max_choice a b with h | h
        · left; rw [h1, h]
        · right; rw [h1, h]; exact List.mem_cons_self
      · right; exact List.mem_cons_of_mem _ h1
    · intro v hv
      rcases List.mem_cons.mp hv with rfl | hv
      · exact (le_max_right _ _).trans h2
      · exact h3 v hv

theorem npMin_mem {l : List K} (h : l ≠ []) : npMin l ∈ l := by
  cases l with
  | nil => exact absurd rfl h
  | cons a t =>
    unfold npMin
    rcases (foldl_min_spec t a).1 with h | h
    · simp only [List.tail_cons, List.headD_cons]; rw [h]; exact List.mem_cons_self
    · exact List.mem_cons_of_mem _ h

theorem npMin_le {l : List K} {v : K} (h : v ∈ l) : npMin l ≤ v := by
  cases l with
  | nil => simp at h
  | cons a t =>
    unfold npMin
    rcases List.mem_cons.mp h with rfl | h
    · exact (foldl_min_spec t v).2.1
    · exact (foldl_min_spec t a).2.2 v h

theorem npMax_mem {l : List K} (h : l ≠ []) : npMax l ∈ l := by
  cases l with
  | nil => exact absurd rfl h
  | cons a t =>
    unfold npMax
    rcases (foldl_max_spec t a).1 with h | h
    · simp only [List.tail_cons, List.headD_cons]; rw [h]; exact List.mem_cons_self
    · exact List.mem_cons_of_mem _ h

theorem le_npMax {l : List K} {v : K} (h : v ∈ l) : v ≤ npMax l := by
  cases l with
  | nil => simp at h
  | cons a t =>
    unfold npMax
    rcases List.mem_cons.mp h with rfl | h
    · exact (foldl_max_spec t v).2.1
    · exact (foldl_max_spec t a).2.2 v h

theorem mem_npSort {l : List K} {v : K} : v ∈ npSort l ↔ v ∈ l := by
  unfold npSort; exact (List.perm_insertionSort _ l).mem_iff

theorem length_npSort (l : List K) : (npSort l).length = l.length := by
  unfold npSort; exact (List.perm_insertionSort _ l).length_eq

theorem npSort_sorted (l : List K) : (npSort l).Pairwise (· ≤ ·) := by
  unfold npSort; exact List.pairwise_insertionSort _ l

theorem npSort_mono {l : List K} {i j : ℕ} (hij : i ≤ j) (hj : j < l.length) :
    (npSort l).getD i 0 ≤ (npSort l).getD j 0 := by
  have h := npSort_sorted l
  have hj' : j < (npSort l).length := by rw [length_npSort]; exact hj
  have hi' : i < (npSort l).length := lt_of_le_of_lt hij hj'
  rw [List.getD_eq_getElem _ _ hi', List.getD_eq_getElem _ _ hj']
  rcases hij.lt_or_eq with h1 | rfl
  · exact (List.pairwise_iff_getElem.mp h) i j hi' hj' h1
  · exact le_refl _

/-- The percentile as a function of the position in the sorted data. -/
def interpPos (v : List K) (pos : K) : K :=
  v.getD (⌊pos⌋).toNat 0
    + (pos - ((⌊pos⌋).toNat : K)) * (v.getD (min ((⌊pos⌋).toNat + 1) (v.length - 1)) 0
        - v.getD (⌊pos⌋).toNat 0)

theorem npPercentile_eq (l : List K) (q : K) :
    npPercentile l q = interpPos (npSort l) (q / 100 * ((l.length : K) - 1)) := by
  unfold npPercentile interpPos
  simp only [length_npSort]

theorem interpPos_mono {l : List K} {p q : K} (h0 : 0 ≤ p) (hpq : p ≤ q)
    (hq : q ≤ (l.length : K) - 1) : interpPos (npSort l) p ≤ interpPos (npSort l) q := by
  have hq0 : 0 ≤ q := h0.trans hpq
  have hlen : 1 ≤ l.length := by
    by_contra hc
    have : l.length = 0 := by omega
    rw [this] at hq; norm_num at hq; linarith
  have hfp : 0 ≤ ⌊p⌋ := Int.floor_nonneg.mpr h0
  have hfq : 0 ≤ ⌊q⌋ := Int.floor_nonneg.mpr hq0
  have hf : ⌊p⌋ ≤ ⌊q⌋ := Int.floor_le_floor hpq
  obtain ⟨i, hi⟩ : ∃ i : ℕ, ⌊p⌋ = i := ⟨_, (Int.toNat_of_nonneg hfp).symm⟩
  obtain ⟨j, hj⟩ : ∃ j : ℕ, ⌊q⌋ = j := ⟨_, (Int.toNat_of_nonneg hfq).symm⟩
  have hpi : (i : K) ≤ p := by have := Int.floor_le p; rw [hi] at this; exact_mod_cast this
  have hpi' : p < (i : K) + 1 := by have := Int.lt_floor_add_one p; rw [hi] at this; exact_mod_cast this
  have hqj : (j : K) ≤ q := by have := Int.floor_le q; rw [hj] at this; exact_mod_cast this
  have hqj' : q < (j : K) + 1 := by have := Int.lt_floor_add_one q; rw [hj] at this; exact_mod_cast this
  have hij : i ≤ j := by omega
  have hjn : j < l.length := by
    have h1 : (j : K) ≤ (l.length : K) - 1 := hqj.trans hq
    have h2 : ((j + 1 : ℕ) : K) ≤ (l.length : K) := by push_cast; linarith
    exact_mod_cast h2
  have e1 : (⌊p⌋).toNat = i := by omega
  have e2 : (⌊q⌋).toNat = j := by omega
  unfold interpPos
  rw [e1, e2, length_npSort]
  set v := npSort l
  have hup : ∀ k, k < l.length → v.getD k 0 ≤ v.getD (min (k + 1) (l.length - 1)) 0 := by
    intro k hk; exact npSort_mono (by omega) (by omega)
  rcases hij.lt_or_eq with hlt | rfl
  · -- different segments
    have h1 : v.getD i 0 + (p - i) * (v.getD (min (i + 1) (l.length - 1)) 0 - v.getD i 0)
        ≤ v.getD (min (i + 1) (l.length - 1)) 0 := by
      have hd : 0 ≤ v.getD (min (i + 1) (l.length - 1)) 0 - v.getD i 0 :=
        sub_nonneg.mpr (hup i (by omega))
      have : (p - i) * (v.getD (min (i + 1) (l.length - 1)) 0 - v.getD i 0)
          ≤ 1 * (v.getD (min (i + 1) (l.length - 1)) 0 - v.getD i 0) :=
        mul_le_mul_of_nonneg_right (by linarith) hd
      linarith
    have h2 : v.getD (min (i + 1) (l.length - 1)) 0 ≤ v.getD j 0 := npSort_mono (by omega) hjn
    have h3 : 0 ≤ (q - j) * (v.getD (min (j + 1) (l.length - 1)) 0 - v.getD j 0) :=
      mul_nonneg (by linarith) (sub_nonneg.mpr (hup j hjn))
    linarith
  · have hd : 0 ≤ v.getD (min (i + 1) (l.length - 1)) 0 - v.getD i 0 :=
      sub_nonneg.mpr (hup i (by omega))
    have : (p - i) * (v.getD (min (i + 1) (l.length - 1)) 0 - v.getD i 0)
        ≤ (q - i) * (v.getD (min (i + 1) (l.length - 1)) 0 - v.getD i 0) :=
      mul_le_mul_of_nonneg_right (by linarith) hd
    linarith

/-- Percentiles grow with the requested rank. -/
theorem npPercentile_mono {l : List K} (hl : l ≠ []) {p q : K} (h0 : 0 ≤ p) (hpq : p ≤ q)
    (hq : q ≤ 100) : npPercentile l p ≤ npPercentile l q := by
  have hn : (1 : K) ≤ (l.length : K) := by
    have : 1 ≤ l.length := List.length_pos_iff.mpr hl
    exact_mod_cast this
  rw [npPercentile_eq, npPercentile_eq]
  have hd : 0 ≤ (l.length : K) - 1 := by linarith
  apply interpPos_mono
  · exact mul_nonneg (div_nonneg h0 (by norm_num)) hd
  · exact mul_le_mul_of_nonneg_right (div_le_div_of_nonneg_right hpq (by norm_num)) hd
  · have : q / 100 ≤ 1 := by rw [div_le_one (by norm_num)]; exact hq
    calc q / 100 * ((l.length : K) - 1) ≤ 1 * ((l.length : K) - 1) :=
          mul_le_mul_of_nonneg_right this hd
      _ = _ := one_mul _

theorem npPercentile_zero {l : List K} (hl : l ≠ []) : npPercentile l 0 = npMin l := by
  rw [npPercentile_eq]
  unfold interpPos
  simp only [zero_div, zero_mul, Int.floor_zero, Int.toNat_zero, Nat.cast_zero, sub_zero, add_zero]
  apply le_antisymm
  · have h1 := mem_npSort.mpr (npMin_mem hl)
    obtain ⟨k, hk, hk'⟩ := List.mem_iff_getElem.mp h1
    rw [← hk', ← List.getD_eq_getElem _ 0 hk]
    exact npSort_mono (Nat.zero_le _) (by rw [length_npSort] at hk; exact hk)
  · have h0 : 0 < (npSort l).length := by rw [length_npSort]; exact List.length_pos_iff.mpr hl
    rw [List.getD_eq_getElem _ _ h0]
    exact npMin_le (mem_npSort.mp (List.getElem_mem h0))

theorem npPercentile_hundred {l : List K} (hl : l ≠ []) : npPercentile l 100 = npMax l := by
  have hn : 1 ≤ l.length := List.length_pos_iff.mpr hl
  rw [npPercentile_eq]
  unfold interpPos
  have e1 : (100 : K) / 100 * ((l.length : K) - 1) = ((l.length - 1 : ℕ) : K) := by
    rw [div_self (by norm_num : (100 : K) ≠ 0), one_mul]; push_cast [hn]; ring
  rw [e1]
  have e2 : (⌊((l.length - 1 : ℕ) : K)⌋).toNat = l.length - 1 := by
    rw [Int.floor_natCast]; rfl
  rw [e2, sub_self, zero_mul, add_zero]
  have hlt : l.length - 1 < (npSort l).length := by rw [length_npSort]; omega
  apply le_antisymm
  · rw [List.getD_eq_getElem _ _ hlt]
    exact le_npMax (mem_npSort.mp (List.getElem_mem hlt))
  · have h1 := mem_npSort.mpr (npMax_mem hl)
    obtain ⟨k, hk, hk'⟩ := List.mem_iff_getElem.mp h1
    rw [← hk', ← List.getD_eq_getElem _ 0 hk]
    rw [length_npSort] at hk
    exact npSort_mono (by omega) (by omega)

end Recourse
