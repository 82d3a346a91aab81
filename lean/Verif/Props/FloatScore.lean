import Mathlib.Data.Rat.Floor
import Verif.Model.FloatScore
import Verif.Lemmas.Num
import Verif.Props.Float

/-!
# C104: scores and predictions in floating point arithmetic
-/

set_option linter.unusedSectionVars false

namespace Recourse

variable {K : Type} [Field K] [LinearOrder K] [IsStrictOrderedRing K] [FloorRing K]

/-! ## Specification -/

/-- The sum of the absolute values of the contributions to the score. -/
def absDot (w x : List K) : K := ((List.zipWith (· * ·) w x).map fun p => |p|).sum

/-- The error of a computed dot product. -/
def dotError (r : Rounding K) (w x : List K) : K := ((1 + r.u) ^ (List.zipWith (· * ·) w x).length - 1) * absDot w x

/-! ## Error of sums -/

theorem sum_abs_nonneg (l : List K) : 0 ≤ (l.map fun p => |p|).sum := by
  apply List.sum_nonneg
  intro x hx
  obtain ⟨p, -, rfl⟩ := List.mem_map.mp hx
  exact abs_nonneg p

theorem abs_sum_le (l : List K) : |l.sum| ≤ (l.map fun p => |p|).sum := by
  induction l with
  | nil => simp
  | cons a t ih =>
    rw [List.sum_cons, List.map_cons, List.sum_cons]
    exact (abs_add_le _ _).trans (by linarith)

theorem one_le_pow_u (r : Rounding K) (n : ℕ) : 1 ≤ (1 + r.u) ^ n := one_le_pow₀ (by linarith [r.nonneg])

theorem pow_u_mono (r : Rounding K) {m n : ℕ} (h : m ≤ n) : (1 + r.u) ^ m ≤ (1 + r.u) ^ n :=
  pow_le_pow_right₀ (by linarith [r.nonneg]) h

/-- Adding up `n` numbers in any order has a relative error of at most `(1 + u) ^ (n - 1) - 1`. -/
theorem FlSum.error {r : Rounding K} {l : List K} {s : K} (h : FlSum r l s) :
    |s - l.sum| ≤ ((1 + r.u) ^ (l.length - 1) - 1) * (l.map fun p => |p|).sum := by
  induction h with
  | nil => simp
  | one x => simp
  | @join l l₁ l₂ s₁ s₂ h₁ h₂ n₁ n₂ hp ih₁ ih₂ =>
    have hu := r.nonneg
    have e1 : l.sum = l₁.sum + l₂.sum := by rw [hp.sum_eq, List.sum_append]
    have e2 : (l.map fun p => |p|).sum = (l₁.map fun p => |p|).sum + (l₂.map fun p => |p|).sum := by
      rw [(hp.map _).sum_eq, List.map_append, List.sum_append]
    have e3 : l.length = l₁.length + l₂.length := by rw [hp.length_eq, List.length_append]
    have p1 := List.length_pos_iff.mpr n₁
    have p2 := List.length_pos_iff.mpr n₂
    set m := l.length - 2 with hm
    have hl : l.length - 1 = m + 1 := by omega
    have a1 := sum_abs_nonneg l₁
    have a2 := sum_abs_nonneg l₂
    have b1 := abs_sum_le l₁
    have b2 := abs_sum_le l₂
    set A₁ := (l₁.map fun p => |p|).sum
    set A₂ := (l₂.map fun p => |p|).sum
    have c1 : |s₁ - l₁.sum| ≤ ((1 + r.u) ^ m - 1) * A₁ :=
      ih₁.trans (mul_le_mul_of_nonneg_right (sub_le_sub_right (pow_u_mono r (by omega)) 1) a1)
    have c2 : |s₂ - l₂.sum| ≤ ((1 + r.u) ^ m - 1) * A₂ :=
      ih₂.trans (mul_le_mul_of_nonneg_right (sub_le_sub_right (pow_u_mono r (by omega)) 1) a2)
    have c : |s₁ + s₂ - l.sum| ≤ ((1 + r.u) ^ m - 1) * (A₁ + A₂) := by
      rw [e1, show s₁ + s₂ - (l₁.sum + l₂.sum) = (s₁ - l₁.sum) + (s₂ - l₂.sum) by ring]
      exact (abs_add_le _ _).trans (by linarith)
    have d : |s₁ + s₂| ≤ (1 + r.u) ^ m * (A₁ + A₂) := by
      have hs : |l.sum| ≤ A₁ + A₂ := by
        rw [e1]; exact (abs_add_le _ _).trans (by linarith)
      have := abs_add_le (s₁ + s₂ - l.sum) l.sum
      rw [sub_add_cancel] at this
      linarith
    have f := r.near (s₁ + s₂)
    have f' := mul_le_mul_of_nonneg_left d hu
    have g := abs_add_le (r.fl (s₁ + s₂) - (s₁ + s₂)) (s₁ + s₂ - l.sum)
    rw [sub_add_sub_cancel] at g
    rw [hl, e2, pow_succ]
    have : ((1 + r.u) ^ m * (1 + r.u) - 1) * (A₁ + A₂)
        = r.u * ((1 + r.u) ^ m * (A₁ + A₂)) + ((1 + r.u) ^ m - 1) * (A₁ + A₂) := by ring
    linarith

theorem FlSum.nil_eq {r : Rounding K} {l : List K} {s : K} (h : FlSum r l s) (hl : l = []) : s = 0 := by
  cases h with
  | nil => rfl
  | one x => cases hl
  | join h₁ h₂ n₁ n₂ hp =>
    rw [hl] at hp
    have := hp.symm.eq_nil
    exact absurd (List.append_eq_nil_iff.mp this).1 n₁

theorem terms_error {r : Rounding K} {ts ps : List K} (h : List.Forall₂ (fun t p => t = p ∨ t = r.fl p) ts ps) :
    |ts.sum - ps.sum| ≤ r.u * (ps.map fun p => |p|).sum ∧
      (ts.map fun p => |p|).sum ≤ (1 + r.u) * (ps.map fun p => |p|).sum := by
  induction h with
  | nil => simp
  | @cons t p ts ps htp _ ih =>
    have hu := r.nonneg
    have hp := abs_nonneg p
    have h1 : |t - p| ≤ r.u * |p| := by
      rcases htp with rfl | rfl
      · rw [sub_self, abs_zero]; positivity
      · exact r.near p
    have h2 : |t| ≤ (1 + r.u) * |p| := by
      have := abs_add_le (t - p) p
      rw [sub_add_cancel] at this
      linarith
    simp only [List.sum_cons, List.map_cons]
    constructor
    · rw [show t + ts.sum - (p + ps.sum) = (t - p) + (ts.sum - ps.sum) by ring]
      have := abs_add_le (t - p) (ts.sum - ps.sum)
      linarith [ih.1]
    · linarith [ih.2]

theorem FlDot.error {r : Rounding K} {w x : List K} {s : K} (h : FlDot r w x s) : |s - dot w x| ≤ dotError r w x := by
  obtain ⟨ts, hts, hs⟩ := h
  obtain ⟨h1, h2⟩ := terms_error hts
  have h3 := hs.error
  have hlen := hts.length_eq
  unfold dotError dot absDot
  set ps := List.zipWith (· * ·) w x with hps
  have hA := sum_abs_nonneg ps
  set A := (ps.map fun p => |p|).sum
  rcases Nat.eq_zero_or_pos ps.length with h0 | h0
  · have : ps = [] := List.length_eq_zero_iff.mp h0
    have ht : ts = [] := List.length_eq_zero_iff.mp (by omega)
    rw [hs.nil_eq ht, this]; simp
  · obtain ⟨m, hm⟩ : ∃ m, ps.length = m + 1 := ⟨ps.length - 1, by omega⟩
    rw [hlen, hm, Nat.add_sub_cancel] at h3
    have hp := one_le_pow_u r m
    have h4 := mul_le_mul_of_nonneg_left h2 (sub_nonneg.mpr hp)
    have h5 := abs_add_le (s - ts.sum) (ts.sum - ps.sum)
    rw [sub_add_sub_cancel] at h5
    rw [hm, pow_succ]
    have : ((1 + r.u) ^ m * (1 + r.u) - 1) * A = ((1 + r.u) ^ m - 1) * ((1 + r.u) * A) + r.u * A := by ring
    linarith

/-! ## Signs -/

/-- A rounding with a relative error below 1 preserves signs. -/
theorem sgn_fl {r : Rounding K} (hu : r.u < 1) (z : K) : sgn (r.fl z) = sgn z := by
  rcases lt_trichotomy z 0 with h | h | h
  · rw [sgn_neg h, sgn_eq_neg_one]
    have := (abs_le.mp (r.near z)).2
    rw [abs_of_neg h] at this
    nlinarith
  · rw [h, r.zero]
  · rw [sgn_pos h, sgn_eq_one]
    have := (abs_le.mp (r.near z)).1
    rw [abs_of_pos h] at this
    nlinarith

theorem sgn_near {s z e : K} (h : |s - z| ≤ e) (he : e < |z|) : sgn s = sgn z := by
  have h' := abs_le.mp h
  rcases lt_trichotomy z 0 with hz | hz | hz
  · rw [abs_of_neg hz] at he
    rw [sgn_neg hz, sgn_eq_neg_one]; linarith
  · rw [hz, abs_zero] at he
    exact absurd ((abs_nonneg _).trans h) (not_le.mpr he)
  · rw [abs_of_pos hz] at he
    rw [sgn_pos hz, sgn_eq_one]; linarith

/-! ## The property -/

/-- **C104**, error: whatever the order of evaluation, the computed score of the builder differs from the exact score by at most the error of the dot
product, and the rounding of the last addition. -/
theorem C104_error {r : Rounding K} (b : Builder K) {x : List K} {d : K} (h : FlDot r b.coefs x d) :
    |b.scoreFl r d - b.score x| ≤ (1 + r.u) * dotError r b.coefs x + r.u * |b.score x| := by
  have h1 := h.error
  have h2 := r.near (d + b.intercept)
  have h3 : |d + b.intercept - b.score x| ≤ dotError r b.coefs x := by
    unfold Builder.score
    rwa [add_sub_add_right_eq_sub]
  have h4 := abs_add_le (d + b.intercept - b.score x) (b.score x)
  rw [sub_add_cancel] at h4
  have h5 := mul_le_mul_of_nonneg_left h4 r.nonneg
  have h6 := mul_le_mul_of_nonneg_left h3 r.nonneg
  have h7 := abs_add_le (r.fl (d + b.intercept) - (d + b.intercept)) (d + b.intercept - b.score x)
  rw [sub_add_sub_cancel] at h7
  unfold Builder.scoreFl
  linarith

/-- **C104**, one value of the dot product: the builder's prediction, the flipset's prediction and the auditor's choice of rows come from the same comparison,
whatever the rounding of the additions. -/
theorem C104_same {r : Rounding K} (hu : r.u < 1) (b : Builder K) (ad : Auditor K) (fs : Flipset K) (hb : b.intercept = ad.intercept)
    (hf : fs.intercept = ad.intercept) (d : K) :
    fs.predictFl r d = b.predictionFl r d ∧ (ad.selectedFl 1 d = true ↔ b.predictionFl r d = -1) ∧
      (ad.selectedFl (-1) d = true ↔ b.predictionFl r d ≠ -1) := by
  unfold Flipset.predictFl Flipset.scoreFl Builder.predictionFl Builder.scoreFl Auditor.selectedFl
  rw [sgn_fl hu, sgn_fl hu, hb, hf, add_comm]
  refine ⟨rfl, ?_, ?_⟩
  · rw [if_pos (by decide), decide_eq_true_eq, sgn_eq_neg_one]
    constructor <;> intro h <;> linarith
  · rw [if_neg (by decide), decide_eq_true_eq, Ne, sgn_eq_neg_one, not_lt]
    constructor <;> intro h <;> linarith

/-- **C104**, away from the decision boundary: if the exact score exceeds the error of the dot product, every order of evaluation gives the exact prediction, and the
auditor, computing the score in its own order, selects the row exactly if it should. -/
theorem C104_margin {r : Rounding K} (hu : r.u < 1) (b : Builder K) {x : List K} (hm : dotError r b.coefs x < |b.score x|) {d : K}
    (h : FlDot r b.coefs x d) : b.predictionFl r d = b.prediction x := by
  unfold Builder.predictionFl Builder.scoreFl Builder.prediction
  rw [sgn_fl hu]
  apply sgn_near _ hm
  unfold Builder.score
  rw [add_sub_add_right_eq_sub]
  exact h.error

theorem flSum_exists (r : Rounding K) : ∀ l : List K, ∃ s, FlSum r l s
  | [] => ⟨0, .nil⟩
  | [x] => ⟨x, .one x⟩
  | x :: y :: t => by
    obtain ⟨s, hs⟩ := flSum_exists r (y :: t)
    exact ⟨_, .join (.one x) hs (by simp) (by simp) (List.Perm.refl _)⟩

/-- Every dot product has some computed value, and without rounding only the exact one. -/
theorem flDot_exists (r : Rounding K) (w x : List K) : ∃ d, FlDot r w x d := by
  obtain ⟨s, hs⟩ := flSum_exists r (List.zipWith (· * ·) w x)
  refine ⟨s, _, ?_, hs⟩
  exact List.forall₂_same.mpr fun _ _ => Or.inl rfl

/-- The auditor's part of the previous theorem. -/
theorem C104_audit {r : Rounding K} (ad : Auditor K) {x : List K} (hm : dotError r x ad.coefs < |dot x ad.coefs + ad.intercept|) {d : K}
    (h : FlDot r x ad.coefs d) (y : Int) : ad.selectedFl y d = ad.selected y x := by
  have h1 : sgn (d + ad.intercept) = sgn (dot x ad.coefs + ad.intercept) := by
    apply sgn_near _ hm
    rw [add_sub_add_right_eq_sub]
    exact h.error
  have h2 : d < -ad.intercept ↔ dot x ad.coefs < -ad.intercept := by
    have := sgn_eq_neg_one (x := d + ad.intercept)
    rw [h1, sgn_eq_neg_one] at this
    constructor <;> intro h
    · linarith [this.mpr (by linarith)]
    · linarith [this.mp (by linarith)]
  unfold Auditor.selectedFl Auditor.selected
  by_cases hy : 0 < y
  · rw [if_pos hy, if_pos hy, decide_eq_decide]; exact h2
  · rw [if_neg hy, if_neg hy, decide_eq_decide, ← not_lt, ← not_lt, h2]

/-! ## Integer scorecards -/

/-- All numbers are integers. -/
def AllInt (l : List K) : Prop := ∀ p ∈ l, ∃ z : ℤ, (z : K) = p

theorem AllInt.sum {l : List K} (h : AllInt l) : ∃ z : ℤ, (z : K) = l.sum := by
  induction l with
  | nil => exact ⟨0, by simp⟩
  | cons a t ih =>
    obtain ⟨z, hz⟩ := ih fun p hp => h p (List.mem_cons_of_mem _ hp)
    obtain ⟨y, hy⟩ := h a List.mem_cons_self
    exact ⟨y + z, by rw [List.sum_cons, ← hy, ← hz]; push_cast; ring⟩

theorem FlSum.exact {r : Rounding K} {N : K} (hr : ExactTo r N) {l : List K} {s : K} (h : FlSum r l s) (hl : AllInt l)
    (hN : (l.map fun p => |p|).sum ≤ N) : s = l.sum := by
  induction h with
  | nil => simp
  | one x => simp
  | @join l l₁ l₂ s₁ s₂ h₁ h₂ n₁ n₂ hp ih₁ ih₂ =>
    have e1 : l.sum = l₁.sum + l₂.sum := by rw [hp.sum_eq, List.sum_append]
    have e2 : (l.map fun p => |p|).sum = (l₁.map fun p => |p|).sum + (l₂.map fun p => |p|).sum := by
      rw [(hp.map _).sum_eq, List.map_append, List.sum_append]
    have a1 := sum_abs_nonneg l₁
    have a2 := sum_abs_nonneg l₂
    rw [ih₁ (fun p h => hl p (hp.mem_iff.mpr (List.mem_append_left _ h))) (by linarith),
      ih₂ (fun p h => hl p (hp.mem_iff.mpr (List.mem_append_right _ h))) (by linarith), ← e1]
    obtain ⟨z, hz⟩ := hl.sum
    rw [← hz]
    apply hr.int
    rw [hz]
    exact (abs_sum_le l).trans hN

theorem terms_exact {r : Rounding K} {N : K} (hr : ExactTo r N) {ts ps : List K}
    (h : List.Forall₂ (fun t p => t = p ∨ t = r.fl p) ts ps) (hi : AllInt ps) (hN : (ps.map fun p => |p|).sum ≤ N) : ts = ps := by
  induction h with
  | nil => rfl
  | @cons t p ts ps htp _ ih =>
    rw [List.map_cons, List.sum_cons] at hN
    have a := sum_abs_nonneg ps
    have a' := abs_nonneg p
    rw [ih (fun q hq => hi q (List.mem_cons_of_mem _ hq)) (by linarith)]
    congr 1
    rcases htp with h | h
    · exact h
    · obtain ⟨z, hz⟩ := hi p List.mem_cons_self
      rw [h, ← hz]
      apply hr.int
      rw [hz]; linarith

/-- **C104**, integer weights and features: if all numbers are small integers (with doubles: up to `2 ^ 52`), dot products have only one value, the exact one, and all
predictions are exact, whatever the intercept. -/
theorem C104_integers {r : Rounding K} {N : K} (hr : ExactTo r N) (hu : r.u < 1) (b : Builder K) {x : List K} (hw : AllInt b.coefs)
    (hx : AllInt x) (hN : absDot b.coefs x ≤ N) {d : K} (h : FlDot r b.coefs x d) :
    d = dot b.coefs x ∧ b.predictionFl r d = b.prediction x := by
  obtain ⟨ts, hts, hs⟩ := h
  have hi : AllInt (List.zipWith (· * ·) b.coefs x) := by
    intro p hp
    rw [List.zipWith_eq_zipWith_take_min] at hp
    obtain ⟨i, hi, rfl⟩ := List.mem_iff_getElem.mp hp
    rw [List.getElem_zipWith]
    obtain ⟨y, hy⟩ := hw (b.coefs[i]'(by simp at hi; omega)) (List.getElem_mem _)
    obtain ⟨z, hz⟩ := hx (x[i]'(by simp at hi; omega)) (List.getElem_mem _)
    refine ⟨y * z, ?_⟩
    push_cast
    rw [hy, hz, List.getElem_take, List.getElem_take]
  have h1 := terms_exact hr hts hi hN
  have h2 : d = dot b.coefs x := by
    have := hs.exact hr (h1 ▸ hi) (h1 ▸ hN)
    rw [this, h1]; rfl
  refine ⟨h2, ?_⟩
  unfold Builder.predictionFl Builder.scoreFl Builder.prediction Builder.score
  rw [sgn_fl hu, h2]

/-! ## Exact arithmetic -/

/-- **C104**, link to the other properties: without rounding there is only one value, and the functions are those all other properties speak about. -/
theorem C104_exact (b : Builder K) (ad : Auditor K) (fs : Flipset K) {x a : List K} {d d' d'' : K} (h : FlDot .exact b.coefs x d)
    (h' : FlDot .exact x ad.coefs d') (h'' : FlDot .exact fs.coefs (vadd fs.x a) d'') (y : Int) :
    b.scoreFl .exact d = b.score x ∧ b.predictionFl .exact d = b.prediction x ∧ ad.selectedFl y d' = ad.selected y x ∧
      fs.scoreFl .exact d'' = fs.score a ∧ fs.predictFl .exact d'' = fs.predict a := by
  have key : ∀ (w x : List K) (d : K), FlDot .exact w x d → d = dot w x := by
    intro w x d h
    have := h.error
    unfold dotError at this
    simp only [Rounding.exact, add_zero, one_pow, sub_self, zero_mul] at this
    exact sub_eq_zero.mp (abs_nonpos_iff.mp this)
  rw [key _ _ _ h, key _ _ _ h', key _ _ _ h'']
  exact ⟨rfl, rfl, rfl, rfl, rfl⟩

/-! ## Examples -/

/-- The classifier and the point of the examples: the doubles nearest to 0.1, 0.2 and 0.3. -/
def tenths : List ℚ := [dbl (1 / 10), dbl (1 / 5), dbl (3 / 10)]

/-- Adding from the left. -/
theorem tenths_left : FlDot doubles tenths [1, 1, 1] (dbl (dbl (dbl (1 / 10) + dbl (1 / 5)) + dbl (3 / 10))) :=
  ⟨tenths, by decide +kernel, .join (.join (.one _) (.one _) (by simp) (by simp) (.refl _)) (.one _) (by simp) (by simp) (.refl _)⟩

/-- Adding from the right. -/
theorem tenths_right : FlDot doubles [1, 1, 1] tenths (dbl (dbl (1 / 10) + dbl (dbl (1 / 5) + dbl (3 / 10)))) :=
  ⟨tenths, by decide +kernel, .join (.one _) (.join (.one _) (.one _) (by simp) (by simp) (.refl _)) (by simp) (by simp) (.refl _)⟩

/-- The intercept: minus the sum of the weights, added from the left (-0.6000000000000001). -/
def tenthsT : ℚ := -dbl (dbl (dbl (1 / 10) + dbl (1 / 5)) + dbl (3 / 10))

/-- **C104** refuted near the boundary: with weights 0.1, 0.2, 0.3 the builder and the auditor of the same classifier disagree about the point (1, 1, 1) if they add the
products in different orders: the auditor audits it as denied, the builder does not predict -1. -/
theorem C104_order_refuted : ∃ d d' : ℚ, FlDot doubles tenths [1, 1, 1] d ∧ FlDot doubles [1, 1, 1] tenths d' ∧
    ∀ (b : Builder ℚ) (ad : Auditor ℚ), b.coefs = tenths → b.intercept = tenthsT → ad.coefs = tenths → ad.intercept = tenthsT →
      ad.selectedFl 1 d' = true ∧ b.predictionFl doubles d ≠ -1 := by
  refine ⟨_, _, tenths_left, tenths_right, ?_⟩
  intro b ad _ hb _ ha
  unfold Auditor.selectedFl Builder.predictionFl Builder.scoreFl
  rw [hb, ha]
  decide +kernel

/-- With an intercept of -1/2 the point is far enough from the boundary: the error is below 1e-15. -/
example (b : Builder ℚ) (hw : b.coefs = tenths) (ht : b.intercept = -1 / 2) :
    dotError doubles b.coefs [1, 1, 1] < |b.score [1, 1, 1]| ∧ dotError doubles b.coefs [1, 1, 1] < 1 / 10 ^ 15 := by
  unfold Builder.score
  rw [hw, ht]
  decide +kernel

/-- A scorecard with integer weights. -/
example : AllInt ([3, -2, 5] : List ℚ) ∧ AllInt ([1, 0, 40] : List ℚ) ∧ absDot ([3, -2, 5] : List ℚ) [1, 0, 40] ≤ 2 ^ 52 := by
  refine ⟨?_, ?_, by decide +kernel⟩ <;> intro p hp <;> simp only [List.mem_cons, List.not_mem_nil, or_false] at hp <;>
    rcases hp with rfl | rfl | rfl
  · exact ⟨3, by norm_num⟩
  · exact ⟨-2, by norm_num⟩
  · exact ⟨5, by norm_num⟩
  · exact ⟨1, by norm_num⟩
  · exact ⟨0, by norm_num⟩
  · exact ⟨40, by norm_num⟩

end Recourse
