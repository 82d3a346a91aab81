import Verif.Num
import Mathlib.Tactic.Ring
import Mathlib.Tactic.Linarith
import Mathlib.Tactic.FieldSimp
import Mathlib.Tactic.Positivity

/-! # Lemmas on the numeric primitives -/

set_option linter.unusedSectionVars false

namespace Recourse

variable {K : Type} [Field K] [LinearOrder K] [IsStrictOrderedRing K] [FloorRing K]

theorem sgn_pos {x : K} (h : 0 < x) : sgn x = 1 := by simp [sgn, h]
theorem sgn_neg {x : K} (h : x < 0) : sgn x = -1 := by simp [sgn, h, not_lt.mpr h.le]
@[simp] theorem sgn_zero : sgn (0 : K) = 0 := by simp [sgn]

theorem sgn_eq_one {x : K} : sgn x = 1 ↔ 0 < x := by
  unfold sgn; split_ifs <;> simp_all
theorem sgn_eq_neg_one {x : K} : sgn x = -1 ↔ x < 0 := by
  unfold sgn; split_ifs with h1 h2 <;> simp_all [le_of_lt]
theorem sgn_eq_zero {x : K} : sgn x = 0 ↔ x = 0 := by
  unfold sgn; split_ifs with h1 h2
  · simp [h1.ne']
  · simp [h2.ne]
  · simp [le_antisymm (not_lt.mp h1) (not_lt.mp h2)]

theorem sgn_cases (x : K) : (sgn x = 1 ∧ 0 < x) ∨ (sgn x = -1 ∧ x < 0) ∨ (sgn x = 0 ∧ x = 0) := by
  rcases lt_trichotomy x 0 with h | h | h
  · exact Or.inr (Or.inl ⟨sgn_neg h, h⟩)
  · exact Or.inr (Or.inr ⟨by simp [h], h⟩)
  · exact Or.inl ⟨sgn_pos h, h⟩

theorem sgn_sign (x : K) : Int.sign (sgn x) = sgn x := by
  unfold sgn; split_ifs <;> simp

@[simp] theorem trunc_intCast (z : ℤ) : trunc (z : K) = z := by
  unfold trunc; split_ifs <;> simp

theorem isIntegral_iff {x : K} : isIntegral x = true ↔ ∃ z : ℤ, (z : K) = x := by
  unfold isIntegral
  simp only [decide_eq_true_eq]
  constructor
  · intro h; exact ⟨_, h⟩
  · rintro ⟨z, rfl⟩; simp

/-- `np.arange(lo, hi + s, s)` for a positive step and `lo ≤ hi`. -/
theorem arange_spec {lo hi s : K} (hs : 0 < s) (hlh : lo ≤ hi) :
    ∃ n : ℕ, arange lo (hi + s) s
        = .ok ((List.range (n + 1)).map fun (i : ℕ) => lo + (i : K) * s) ∧
      hi ≤ lo + (n : K) * s ∧ lo + (n : K) * s < hi + s := by
  refine ⟨(⌈(hi - lo) / s⌉).toNat, ?_, ?_, ?_⟩
  · unfold arange
    rw [if_neg hs.ne']
    have h1 : (hi + s - lo) / s = (hi - lo) / s + 1 := by field_simp; ring
    have h2 : 0 ≤ ⌈(hi - lo) / s⌉ := Int.ceil_nonneg (div_nonneg (sub_nonneg.mpr hlh) hs.le)
    rw [h1, Int.ceil_add_one]
    congr 3
    omega
  · have h2 : 0 ≤ ⌈(hi - lo) / s⌉ := Int.ceil_nonneg (div_nonneg (sub_nonneg.mpr hlh) hs.le)
    have h3 : (((⌈(hi - lo) / s⌉).toNat : ℕ) : K) = ((⌈(hi - lo) / s⌉ : ℤ) : K) := by
      rw [← Int.cast_natCast, Int.toNat_of_nonneg h2]
    rw [h3]
    have := Int.le_ceil ((hi - lo) / s)
    rw [div_le_iff₀ hs] at this
    linarith
  · have h2 : 0 ≤ ⌈(hi - lo) / s⌉ := Int.ceil_nonneg (div_nonneg (sub_nonneg.mpr hlh) hs.le)
    have h3 : (((⌈(hi - lo) / s⌉).toNat : ℕ) : K) = ((⌈(hi - lo) / s⌉ : ℤ) : K) := by
      rw [← Int.cast_natCast, Int.toNat_of_nonneg h2]
    rw [h3]
    have := Int.ceil_lt_add_one ((hi - lo) / s)
    have h4 : ((⌈(hi - lo) / s⌉ : ℤ) : K) * s < ((hi - lo) / s + 1) * s :=
      mul_lt_mul_of_pos_right this hs
    rw [add_mul, div_mul_cancel₀ _ hs.ne'] at h4
    linarith

theorem progression_pairwise {lo s : K} (hs : 0 < s) (n : ℕ) :
    ((List.range n).map fun (i : ℕ) => lo + (i : K) * s).Pairwise (· < ·) := by
  rw [List.pairwise_map]
  refine List.pairwise_lt_range.imp ?_
  intro a b hab
  have : (a : K) < (b : K) := by exact_mod_cast hab
  have := mul_lt_mul_of_pos_right this hs
  linarith

/-! ## Insertion of the current point -/

theorem npInsert_searchsorted_pairwise {g : List K} {x : K} (hg : g.Pairwise (· < ·)) (hx : x ∉ g) :
    (npInsert g (searchsorted g x) x).Pairwise (· < ·) := by
  induction g with
  | nil => simp [npInsert, searchsorted]
  | cons a t ih =>
    simp only [List.mem_cons, not_or] at hx
    rw [List.pairwise_cons] at hg
    unfold searchsorted npInsert
    by_cases hax : a < x
    · simp only [List.takeWhile_cons, decide_eq_true hax, if_true, List.length_cons,
        List.take_succ_cons, List.drop_succ_cons, List.cons_append, List.pairwise_cons]
      refine ⟨?_, ih hg.2 hx.2⟩
      intro b hb
      simp only [List.mem_append, List.mem_cons] at hb
      rcases hb with hb | rfl | hb
      · exact hg.1 b (List.mem_of_mem_take hb)
      · exact hax
      · exact hg.1 b (List.mem_of_mem_drop hb)
    · have hxa : x < a := lt_of_le_of_ne (not_lt.mp hax) hx.1
      simp only [List.takeWhile_cons, hax, decide_false, Bool.false_eq_true, if_false,
        List.length_nil, List.take_zero, List.drop_zero, List.nil_append, List.pairwise_cons]
      refine ⟨?_, hg⟩
      intro b hb
      rcases List.mem_cons.mp hb with rfl | hb
      · exact hxa
      · exact hxa.trans (hg.1 b hb)

theorem mem_npInsert {g : List K} {i : ℕ} {x v : K} : v ∈ npInsert g i x ↔ v = x ∨ v ∈ g := by
  unfold npInsert
  rw [List.mem_append, List.mem_cons]
  constructor
  · rintro (h | h | h)
    · exact Or.inr (List.mem_of_mem_take h)
    · exact Or.inl h
    · exact Or.inr (List.mem_of_mem_drop h)
  · rintro (h | h)
    · exact Or.inr (Or.inl h)
    · rw [← List.take_append_drop i g, List.mem_append] at h
      rcases h with h | h
      · exact Or.inl h
      · exact Or.inr (Or.inr h)

end Recourse
