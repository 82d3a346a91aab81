import Mathlib.Data.Int.Log
import Mathlib.Tactic.Ring
import Mathlib.Tactic.FieldSimp
import Mathlib.Tactic.Linarith
import Mathlib.Tactic.Positivity
import Mathlib.Tactic.NormNum
import Verif.Num

/-!
# Floating point arithmetic

A rounding is a monotone function with a bounded relative error that leaves its own results alone; every floating point
operation is the exact operation followed by the rounding.  `dbl` is rounding to 53 bits, ties to even (IEEE 754 doubles, without
overflow and subnormal numbers), and `doubles` shows that it is a rounding.
-/

set_option linter.unusedSectionVars false

namespace Recourse

variable {K : Type} [Field K] [LinearOrder K] [IsStrictOrderedRing K] [FloorRing K]

/-- A rounding to floating point numbers with unit roundoff `u`. -/
structure Rounding (K : Type) [Field K] [LinearOrder K] where
  fl : K → K
  u : K
  nonneg : 0 ≤ u
  mono : ∀ x y, x ≤ y → fl x ≤ fl y
  near : ∀ x, |fl x - x| ≤ u * |x|
  idem : ∀ x, fl (fl x) = fl x

/-- No rounding: exact arithmetic. -/
def Rounding.exact : Rounding K where
  fl := id
  u := 0
  nonneg := le_refl 0
  mono _ _ h := h
  near x := by simp
  idem _ := rfl

theorem Rounding.zero (r : Rounding K) : r.fl 0 = 0 := by
  have := r.near 0
  simpa using this

theorem Rounding.nonneg_of (r : Rounding K) {x : K} (h : 0 ≤ x) : 0 ≤ r.fl x := by
  have := r.mono 0 x h
  rwa [r.zero] at this

theorem Rounding.nonpos_of (r : Rounding K) {x : K} (h : x ≤ 0) : r.fl x ≤ 0 := by
  have := r.mono x 0 h
  rwa [r.zero] at this

/-! ## Doubles -/

/-- The nearest integer, ties to even. -/
def roundEven (x : K) : ℤ :=
  if x - ⌊x⌋ < 1 / 2 then ⌊x⌋ else if 1 / 2 < x - ⌊x⌋ then ⌊x⌋ + 1 else if ⌊x⌋ % 2 = 0 then ⌊x⌋ else ⌊x⌋ + 1

theorem roundEven_near (x : K) : |(roundEven x : K) - x| ≤ 1 / 2 := by
  have h1 := Int.floor_le x
  have h2 := Int.lt_floor_add_one x
  unfold roundEven
  rw [abs_le]
  by_cases a : x - ⌊x⌋ < 1 / 2
  · rw [if_pos a]; constructor <;> linarith
  · rw [if_neg a]
    by_cases b : 1 / 2 < x - ⌊x⌋
    · rw [if_pos b]; push_cast; constructor <;> linarith
    · rw [if_neg b]
      by_cases c : ⌊x⌋ % 2 = 0
      · rw [if_pos c]; constructor <;> linarith
      · rw [if_neg c]; push_cast; constructor <;> linarith

theorem roundEven_int (n : ℤ) : roundEven (n : K) = n := by
  unfold roundEven
  rw [Int.floor_intCast, if_pos (by rw [sub_self]; norm_num)]

theorem roundEven_floor (x : K) : roundEven x = ⌊x⌋ ∨ roundEven x = ⌊x⌋ + 1 := by
  unfold roundEven
  split_ifs <;> simp

theorem roundEven_mono {x y : K} (h : x ≤ y) : roundEven x ≤ roundEven y := by
  have hf : ⌊x⌋ ≤ ⌊y⌋ := Int.floor_mono h
  rcases hf.lt_or_eq with hl | he
  · rcases roundEven_floor x with hx | hx <;> rcases roundEven_floor y with hy | hy <;> omega
  · unfold roundEven
    rw [← he]
    by_cases a : x - ⌊x⌋ < 1 / 2
    · rw [if_pos a]; split_ifs <;> omega
    · rw [if_neg a, if_neg (show ¬ (y - ⌊x⌋ < 1 / 2) by linarith)]
      by_cases b : 1 / 2 < x - ⌊x⌋
      · rw [if_pos b, if_pos (show 1 / 2 < y - ⌊x⌋ by linarith)]
      · rw [if_neg b]; split_ifs <;> omega

/-- Rounding of a positive number to 53 bits. -/
def dblPos (x : K) : K := (roundEven (x / 2 ^ (Int.log 2 x - 52)) : K) * 2 ^ (Int.log 2 x - 52)

/-- Rounding to the nearest number with 53 bits, ties to even. -/
def dbl (x : K) : K := if x = 0 then 0 else if 0 < x then dblPos x else -dblPos (-x)

theorem two_zpow_pos (e : ℤ) : (0 : K) < 2 ^ e := zpow_pos two_pos e

theorem zpow_52 : (2 : K) ^ (52 : ℤ) = ((2 ^ 52 : ℤ) : K) := by norm_num

theorem zpow_53 : (2 : K) ^ (53 : ℤ) = ((2 ^ 53 : ℤ) : K) := by norm_num

theorem dblPos_near {x : K} (hx : 0 < x) : |dblPos x - x| ≤ 1 / 2 ^ 53 * x := by
  unfold dblPos
  set e := Int.log 2 x - 52 with he
  have hp := two_zpow_pos (K := K) e
  have h1 := roundEven_near (x / 2 ^ e)
  have h2 : (2 : K) ^ (Int.log 2 x) ≤ x := by
    have := Int.zpow_log_le_self (R := K) (b := 2) (by norm_num) hx
    simpa using this
  have h3 : (2 : K) ^ (Int.log 2 x) = 2 ^ e * 2 ^ 52 := by
    rw [show Int.log 2 x = e + 52 by omega, zpow_add₀ (by norm_num), zpow_52]; norm_num
  have h4 : (roundEven (x / 2 ^ e) : K) * 2 ^ e - x = ((roundEven (x / 2 ^ e) : K) - x / 2 ^ e) * 2 ^ e := by
    field_simp
  rw [h4, abs_mul, abs_of_pos hp]
  have h5 : |(roundEven (x / 2 ^ e) : K) - x / 2 ^ e| * 2 ^ e ≤ 1 / 2 * 2 ^ e := mul_le_mul_of_nonneg_right h1 hp.le
  have h6 : (1 : K) / 2 ^ 53 * x ≥ 1 / 2 ^ 53 * (2 ^ e * 2 ^ 52) := by
    apply mul_le_mul_of_nonneg_left _ (by positivity)
    rw [← h3]; exact h2
  have h7 : (1 : K) / 2 ^ 53 * (2 ^ e * 2 ^ 52) = 1 / 2 * 2 ^ e := by ring
  linarith

/-- The result lies in the binade of the argument (its upper end included). -/
theorem dblPos_binade {x : K} (hx : 0 < x) : (2 : K) ^ (Int.log 2 x) ≤ dblPos x ∧ dblPos x ≤ 2 ^ (Int.log 2 x + 1) := by
  unfold dblPos
  set e := Int.log 2 x - 52 with he
  have hp := two_zpow_pos (K := K) e
  have h2 : (2 : K) ^ (Int.log 2 x) ≤ x := by
    have := Int.zpow_log_le_self (R := K) (b := 2) (by norm_num) hx
    simpa using this
  have h2' : x < (2 : K) ^ (Int.log 2 x + 1) := by
    have := Int.lt_zpow_succ_log_self (R := K) (b := 2) (by norm_num) x
    simpa using this
  have h3 : (2 : K) ^ (Int.log 2 x) = ((2 ^ 52 : ℤ) : K) * 2 ^ e := by
    rw [show Int.log 2 x = 52 + e by omega, zpow_add₀ (by norm_num), zpow_52]
  have h3' : (2 : K) ^ (Int.log 2 x + 1) = ((2 ^ 53 : ℤ) : K) * 2 ^ e := by
    rw [show Int.log 2 x + 1 = 53 + e by omega, zpow_add₀ (by norm_num), zpow_53]
  constructor
  · rw [h3]
    apply mul_le_mul_of_nonneg_right _ hp.le
    have : roundEven (((2 ^ 52 : ℤ) : K)) ≤ roundEven (x / 2 ^ e) :=
      roundEven_mono ((le_div_iff₀ hp).mpr (h3 ▸ h2))
    rw [roundEven_int] at this
    exact_mod_cast this
  · rw [h3']
    apply mul_le_mul_of_nonneg_right _ hp.le
    have : roundEven (x / 2 ^ e) ≤ roundEven (((2 ^ 53 : ℤ) : K)) :=
      roundEven_mono ((div_le_iff₀ hp).mpr (h3' ▸ h2'.le))
    rw [roundEven_int] at this
    exact_mod_cast this

theorem dblPos_pos {x : K} (hx : 0 < x) : 0 < dblPos x := (two_zpow_pos _).trans_le (dblPos_binade hx).1

theorem dblPos_mono {x y : K} (hx : 0 < x) (h : x ≤ y) : dblPos x ≤ dblPos y := by
  have hl : Int.log 2 x ≤ Int.log 2 y := Int.log_mono_right hx h
  rcases hl.lt_or_eq with hl | he
  · refine (dblPos_binade hx).2.trans (le_trans ?_ (dblPos_binade (hx.trans_le h)).1)
    exact zpow_le_zpow_right₀ (by norm_num) (by omega)
  · unfold dblPos
    rw [← he]
    have hp := two_zpow_pos (K := K) (Int.log 2 x - 52)
    apply mul_le_mul_of_nonneg_right _ hp.le
    exact_mod_cast roundEven_mono (div_le_div_of_nonneg_right h hp.le)

theorem dblPos_idem {x : K} (hx : 0 < x) : dblPos (dblPos x) = dblPos x := by
  have hb := dblPos_binade hx
  set y := dblPos x with hy
  have hy0 : 0 < y := dblPos_pos hx
  rcases hb.2.lt_or_eq with hl | he
  · have hlog : Int.log 2 y = Int.log 2 x := by
      apply le_antisymm
      · have := (Int.lt_zpow_iff_log_lt (R := K) (b := 2) (by norm_num) (x := Int.log 2 x + 1) hy0).mp (by simpa using hl)
        omega
      · exact (Int.zpow_le_iff_le_log (R := K) (b := 2) (by norm_num) hy0).mp (by simpa using hb.1)
    have hp := two_zpow_pos (K := K) (Int.log 2 x - 52)
    unfold dblPos
    rw [hlog]
    have : y / 2 ^ (Int.log 2 x - 52) = ((roundEven (x / 2 ^ (Int.log 2 x - 52)) : ℤ) : K) := by
      rw [hy]; unfold dblPos; rw [mul_div_assoc, div_self hp.ne', mul_one]
    rw [this, roundEven_int, hy]; rfl
  · have hlog : Int.log 2 y = Int.log 2 x + 1 := by
      rw [he]
      have := Int.log_zpow (R := K) (b := 2) (by norm_num) (Int.log 2 x + 1)
      simpa using this
    unfold dblPos
    rw [hlog]
    have hp := two_zpow_pos (K := K) (Int.log 2 x + 1 - 52)
    have : y / 2 ^ (Int.log 2 x + 1 - 52) = ((2 ^ 52 : ℤ) : K) := by
      rw [div_eq_iff hp.ne', he]
      rw [← zpow_52, ← zpow_add₀ (by norm_num)]
      congr 1; ring
    rw [this, roundEven_int, ← this, div_mul_cancel₀ _ hp.ne']

theorem dbl_zero : dbl (0 : K) = 0 := if_pos rfl

theorem dbl_pos {x : K} (hx : 0 < x) : dbl x = dblPos x := by
  unfold dbl; rw [if_neg hx.ne', if_pos hx]

theorem dbl_neg {x : K} (hx : x < 0) : dbl x = -dblPos (-x) := by
  unfold dbl; rw [if_neg hx.ne, if_neg hx.not_gt]

/-- Doubles. -/
def doubles : Rounding K where
  fl := dbl
  u := 1 / 2 ^ 53
  nonneg := by positivity
  mono x y h := by
    rcases lt_trichotomy x 0 with hx | hx | hx
    · rw [dbl_neg hx]
      have h1 := dblPos_pos (neg_pos.mpr hx)
      rcases lt_trichotomy y 0 with hy | hy | hy
      · rw [dbl_neg hy, neg_le_neg_iff]
        exact dblPos_mono (neg_pos.mpr hy) (neg_le_neg h)
      · rw [hy, dbl_zero]; linarith
      · rw [dbl_pos hy]; have := dblPos_pos hy; linarith
    · subst hx
      rw [dbl_zero]
      rcases h.lt_or_eq with hy | hy
      · rw [dbl_pos hy]; exact (dblPos_pos hy).le
      · rw [← hy, dbl_zero]
    · rw [dbl_pos hx, dbl_pos (hx.trans_le h)]
      exact dblPos_mono hx h
  near x := by
    rcases lt_trichotomy x 0 with hx | hx | hx
    · rw [dbl_neg hx, abs_of_neg hx]
      have := dblPos_near (neg_pos.mpr hx)
      rw [show -dblPos (-x) - x = -(dblPos (-x) - -x) by ring, abs_neg]
      exact this
    · rw [hx, dbl_zero]; simp
    · rw [dbl_pos hx, abs_of_pos hx]; exact dblPos_near hx
  idem x := by
    rcases lt_trichotomy x 0 with hx | hx | hx
    · rw [dbl_neg hx, dbl_neg (neg_neg_of_pos (dblPos_pos (neg_pos.mpr hx))), neg_neg, dblPos_idem (neg_pos.mpr hx)]
    · rw [hx, dbl_zero, dbl_zero]
    · rw [dbl_pos hx, dbl_pos (dblPos_pos hx), dblPos_idem hx]

/-- Integers of at most 53 bits are doubles. -/
theorem dbl_int {n : ℤ} (h : |n| ≤ 2 ^ 53) : dbl (n : K) = n := by
  have key : ∀ m : ℤ, 0 < m → m ≤ 2 ^ 53 → dblPos (m : K) = m := by
    intro m hm hm2
    have hmK : (0 : K) < m := by exact_mod_cast hm
    obtain ⟨k, rfl⟩ : ∃ k : ℕ, m = k := ⟨m.toNat, by omega⟩
    have hlog : Int.log 2 ((k : ℤ) : K) = Nat.log 2 k := by
      rw [Int.cast_natCast, Int.log_natCast]
    rcases Nat.lt_or_ge (Nat.log 2 k) 53 with hl | hl
    · unfold dblPos
      rw [hlog]
      have hp := two_zpow_pos (K := K) ((Nat.log 2 k : ℤ) - 52)
      have : ((k : ℤ) : K) / 2 ^ ((Nat.log 2 k : ℤ) - 52) = ((k * 2 ^ (52 - Nat.log 2 k) : ℤ) : K) := by
        rw [div_eq_iff hp.ne']
        push_cast
        rw [mul_assoc, ← zpow_natCast (2 : K) (52 - Nat.log 2 k), ← zpow_add₀ (by norm_num)]
        have : ((52 - Nat.log 2 k : ℕ) : ℤ) + ((Nat.log 2 k : ℤ) - 52) = 0 := by omega
        rw [this]; simp
      rw [this, roundEven_int, ← this, div_mul_cancel₀ _ hp.ne']
    · have hk : k = 2 ^ 53 := by
        have h1 : 2 ^ 53 ≤ k := by
          refine le_trans (Nat.pow_le_pow_right (by norm_num) hl) (Nat.pow_log_le_self 2 ?_)
          omega
        have h2 : k ≤ 2 ^ 53 := by exact_mod_cast hm2
        omega
      subst hk
      have hlog : Nat.log 2 (2 ^ 53) = 53 := Nat.log_pow (by norm_num) _
      unfold dblPos
      rw [Int.cast_natCast, Int.log_natCast, hlog]
      have hp := two_zpow_pos (K := K) (((53 : ℕ) : ℤ) - 52)
      have : ((2 ^ 53 : ℕ) : K) / 2 ^ (((53 : ℕ) : ℤ) - 52) = ((2 ^ 52 : ℤ) : K) := by
        rw [div_eq_iff hp.ne']; push_cast; norm_num
      rw [this, roundEven_int, ← this, div_mul_cancel₀ _ hp.ne']
  rcases lt_trichotomy n 0 with hn | hn | hn
  · have hnK : (n : K) < 0 := by exact_mod_cast hn
    rw [dbl_neg hnK]
    have := key (-n) (by omega) (by rw [abs_of_neg hn] at h; omega)
    push_cast at this
    rw [this, neg_neg]
  · subst hn; simp [dbl_zero]
  · rw [dbl_pos (by exact_mod_cast hn)]
    exact key n hn (by rw [abs_of_pos hn] at h; omega)

end Recourse
