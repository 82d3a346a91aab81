import Verif.Lemmas.Synced
import Verif.Examples

/-!
# Properties C04-C08, C11: offered values, percentiles, compatibility
-/

set_option linter.unusedSectionVars false

namespace Recourse

variable {K : Type} [Field K] [LinearOrder K] [IsStrictOrderedRing K] [FloorRing K]

/-- What `feasible_values(x, return_actions = ra, drop_suboptimal = drop)` returns, as values: the
entries themselves, or `x` plus the entries when actions are requested. -/
def OffersValue (e : Elem K) (x : K) (ra drop : Bool) (v : K) : Prop :=
  ∃ l, e.feasibleValues x ra drop = .ok l ∧ (if ra then v - x else v) ∈ l

theorem feasibleValues_ok {e : Elem K} {x : K} {ra drop : Bool} {l : List K}
    (h : e.feasibleValues x ra drop = .ok l) :
    l = if ra then (e.feasX x drop).map (· - x) else e.feasX x drop := by
  unfold Elem.feasibleValues at h
  obtain ⟨_, -, h⟩ := bind_ok_iff.mp h
  split_ifs at h ⊢ <;> (cases h; rfl)

theorem mem_feasibleValues {e : Elem K} {x v : K} {ra drop : Bool} {l : List K}
    (h : e.feasibleValues x ra drop = .ok l) :
    (if ra then v - x else v) ∈ l ↔ v ∈ e.feasX x drop := by
  rw [feasibleValues_ok h]
  split_ifs with hr
  · simp only [List.mem_map]
    constructor
    · rintro ⟨w, hw, he⟩
      have : w = v := by linarith
      exact this ▸ hw
    · intro hv; exact ⟨v, hv, rfl⟩
  · rfl

/-! ## C04 -/

theorem not_fits_mem {e : Elem K} {x : K} (hg : e.GridOk) (ha : e.actionable = true)
    (hi : e.grid.isInt = true) (hx : ¬ ∃ z : ℤ, (z : K) = x) : x ∉ e.baseX x := by
  unfold Elem.baseX
  simp only [ha, hi, if_true]
  have h1 : x ∉ dirFilter e.stepDir x e.grid.vals := by
    rw [mem_dirFilter]
    rintro ⟨h, -⟩
    exact hx (hg.3 hi x h)
  rw [if_neg h1, mem_npInsert]
  rintro (h | h)
  · apply hx
    unfold trunc at h
    split_ifs at h
    · exact ⟨_, h.symm⟩
    · exact ⟨_, h.symm⟩
  · exact h1 h

/-- **C04** (partial).  The full property, "`x` itself (the zero action) is always offered", is false
(`C04_noop_refuted`).  Proved: for every reachable feature, point and flags it holds exactly unless the
feature is actionable, its grid is integer-typed and `x` is not an integer. -/
theorem C04_noop_partial {ext : Ext K} {e : Elem K} (hr : e.Reachable ext) {x : K} {ra drop : Bool}
    {l : List K} (h : e.feasibleValues x ra drop = .ok l) :
    (if ra then 0 else x) ∈ l ↔
      ¬ (e.actionable = true ∧ e.grid.isInt = true ∧ ¬ ∃ z : ℤ, (z : K) = x) := by
  have h0 : (if ra then (0 : K) else x) = if ra then x - x else x := by simp
  rw [h0, mem_feasibleValues h]
  constructor
  · rintro hm ⟨h1, h2, h3⟩
    exact not_fits_mem hr.inv.2 h1 h2 h3 (mem_feasX_base.mp hm).1
  · intro hn
    have hfit : e.actionable = true → FitsGrid e x := fun ha hi => by
      by_contra hc; exact hn ⟨ha, hi, hc⟩
    rw [mem_feasX hfit]
    exact ⟨Or.inl rfl, fun _ f _ => ⟨fun _ => le_rfl, fun _ => le_rfl⟩⟩

/-- **C04** refuted: an actionable integer feature (ages 1..4) at `x = 5/2` is offered 2 twice, never
`x`: the zero action is missing. -/
theorem C04_noop_refuted : ∃ e : Elem ℚ,
    mkElem "age" [1, 2, 4] (.tuple [.int 1, .int 4]) none true (.str "absolute") 0 (.int 1) = .ok e ∧
    ∃ l, e.feasibleValues (5/2) false false = .ok l ∧ l = [1, 2, 2, 3, 4] ∧ (5/2 : ℚ) ∉ l := by
  decide +kernel

/-- Non-vacuity: the same feature at `x = 2`, aligned, with actions. -/
example : ∃ e : Elem ℚ,
    mkElem "age" [1, 2, 4] (.tuple [.int 1, .int 4]) none true (.str "absolute") 0 (.int 1) = .ok e ∧
    ∃ e', e.setAttr "flip_direction" (.int 1) = .ok e' ∧
    ∃ l, e'.feasibleValues 2 true true = .ok l ∧ l = [0, 1, 2] := by decide +kernel

/-! ## C05 -/

/-- **C05**: the returned list (values or actions) is strictly increasing, hence without duplicates. -/
theorem C05_sorted {ext : Ext K} {e : Elem K} (hr : e.Reachable ext) {x : K} (hx : FitsGrid e x)
    {ra drop : Bool} {l : List K} (h : e.feasibleValues x ra drop = .ok l) :
    l.Pairwise (· < ·) := by
  have hp : (e.feasX x drop).Pairwise (· < ·) := feasX_pairwise hr.inv.2.2 fun _ => hx
  rw [feasibleValues_ok h]
  split_ifs
  · rw [List.pairwise_map]
    exact hp.imp fun hab => by linarith
  · exact hp

/-! ## C06 -/

/-- **C06**: with a step direction no offered value lies on the forbidden side of `x`; with
`drop_suboptimal` none lies against the flip direction either. -/
theorem C06_direction {e : Elem K} {x v : K}
    (hx : FitsGrid e x) {ra drop : Bool} (h : OffersValue e x ra drop v) :
    (e.stepDir = 1 → x ≤ v) ∧ (e.stepDir = -1 → v ≤ x) ∧
    (drop = true → (e.flip = some 1 → x ≤ v) ∧ (e.flip = some (-1) → v ≤ x)) := by
  obtain ⟨l, hl, hv⟩ := h
  rw [mem_feasibleValues hl, mem_feasX fun _ => hx] at hv
  obtain ⟨hp, hk⟩ := hv
  refine ⟨fun hd => ?_, fun hd => ?_, fun hdr => ⟨fun hf => ?_, fun hf => ?_⟩⟩
  · rcases hp with rfl | ⟨-, -, h1, -⟩
    · exact le_rfl
    · exact h1 (by omega)
  · rcases hp with rfl | ⟨-, -, -, h1⟩
    · exact le_rfl
    · exact h1 (by omega)
  · exact (hk hdr 1 hf).1 (by omega)
  · exact (hk hdr (-1) hf).2 (by omega)

/-! ## C07 -/

/-- **C07**, immutability: a non-actionable feature is offered `x` and nothing else (whatever `x`). -/
theorem C07_immutable {e : Elem K} {x : K} (ha : e.actionable = false) {ra drop : Bool} {l : List K}
    (h : e.feasibleValues x ra drop = .ok l) : l = [if ra then 0 else x] := by
  have hb : e.baseX x = [x] := by simp [Elem.baseX, ha]
  have hf : e.feasX x drop = [x] := by
    unfold Elem.feasX
    split
    · rw [hb]; unfold dirFilter; split_ifs <;> simp
    · exact hb
  rw [feasibleValues_ok h, hf]
  split_ifs <;> simp

/-- **C07**, provenance and completeness: the offered values are exactly `x` and, for actionable
features, the grid values compatible with the step direction, and with the flip direction when
`drop_suboptimal` is set and the feature is aligned. -/
theorem C07_exact {e : Elem K} {x : K}
    (hx : FitsGrid e x) {ra drop : Bool} {l : List K} (h : e.feasibleValues x ra drop = .ok l) (v : K) :
    (if ra then v - x else v) ∈ l ↔
      v = x ∨ (e.actionable = true ∧ v ∈ e.grid.vals ∧ DirOk e.stepDir x v ∧
        (drop = true → ∀ f, e.flip = some f → DirOk f x v)) := by
  rw [mem_feasibleValues h, mem_feasX fun _ => hx]
  unfold Permitted KeepFlip
  constructor
  · rintro ⟨h1 | ⟨h1, h2, h3⟩, h4⟩
    · exact Or.inl h1
    · exact Or.inr ⟨h1, h2, h3, fun hd f hf => h4 hd f hf⟩
  · rintro (rfl | ⟨h1, h2, h3, h4⟩)
    · exact ⟨Or.inl rfl, fun _ f _ => ⟨fun _ => le_rfl, fun _ => le_rfl⟩⟩
    · exact ⟨Or.inr ⟨h1, h2, h3⟩, fun hd f hf => h4 hd f hf⟩

/-- Non-vacuity of C05-C07: a feature with step direction `-1` at an off-grid point. -/
example : ∃ e : Elem ℚ,
    mkElem "a" [0, 1/2, 3] (.tuple [.flt 0, .flt 1]) none true (.str "relative") (-2) (.flt (1/4)) = .ok e ∧
    e.stepDir = -1 ∧ (e.grid.isInt = false) ∧
    ∃ l, e.feasibleValues (2/3) false true = .ok l ∧ l = [0, 1/4, 1/2, 2/3] := by decide +kernel

/-! ## C08 -/

/-- **C08** (partial).  For a feature whose percentile table belongs to its current grid (see C56 for what
happens otherwise) and a positive density estimate: strictly increasing
between the first and the last grid value, strictly between 0 and 1 everywhere, and constant outside.
Missing from the full property: monotonicity across the ends, which is false
(`C08_percentile_refuted`). -/
theorem C08_percentile_partial {ext : Ext K} {e : Elem K} (hs : e.Synced ext)
    (hpos : ∀ pdf, ext.kde e.values = .ok pdf → ∀ v, 0 < pdf v)
    {a b p q lo hi : K} (hlo : e.grid.vals.head? = some lo) (hhi : e.grid.vals.getLast? = some hi)
    (ha : e.percentile ext a = .ok p) (hb : e.percentile ext b = .ok q) :
    (lo ≤ a → a < b → b ≤ hi → p < q) ∧ (0 < p ∧ p < 1) ∧
    (a < lo → p = 1 / 10 ^ 6) ∧ (hi < a → p = 1 - 1 / 10 ^ 6) := by
  unfold Elem.percentile at ha hb
  obtain ⟨t, ht, ha⟩ := bind_ok_iff.mp ha
  obtain ⟨t', ht', hb⟩ := bind_ok_iff.mp hb
  rw [ht] at ht'; cases ht'
  cases ha; cases hb
  have hr := hs.reachable
  have hf : e.freshTable ext = .ok t := by rw [← hs.table]; exact ht
  have hlo' : t.lo = pbuf ∧ t.hi = 1 - pbuf := by
    obtain ⟨pdf, -, -, -, -, rfl⟩ := newTable_spec hf
    exact ⟨rfl, rfl⟩
  obtain ⟨hgood, hxs⟩ := freshTable_good hr.inv.2 hpos hf
  have e1 : t.xs.headD 0 = lo := by rw [hxs]; simp [List.headD_eq_head?_getD, hlo]
  have e2 : t.xs.getLastD 0 = hi := by rw [hxs]; simp [List.getLastD_eq_getLast?, hhi]
  have hlh : lo ≤ hi := by
    cases hv : e.grid.vals with
    | nil => rw [hv] at hlo; cases hlo
    | cons g gs =>
      have := le_getLastD (hv ▸ hr.inv.2.2)
      rw [hxs, hv, List.getLastD_cons] at e2
      rw [hv] at hlo
      cases hlo
      rwa [e2] at this
  refine ⟨fun h1 h2 h3 => ?_, hgood.eval_range a, fun h1 => ?_, fun h1 => ?_⟩
  · exact hgood.eval_strict (by rw [e1]; exact h1) h2 (by rw [e2]; exact h3)
  · rw [Table.eval, if_pos (by rw [e1]; exact h1)]; exact hlo'.1
  · rw [Table.eval, if_neg (by rw [e1]; exact not_lt.mpr (hlh.trans h1.le)),
      if_pos (by rw [e2]; exact h1)]; exact hlo'.2

/-- **C08** refuted across the right end: with a constant density and the grid `0, 1, 2` the percentile
of 3 is smaller than the percentile of 2. -/
theorem C08_percentile_refuted : ∃ e : Elem ℚ,
    mkElem "a" [0, 2] (.tuple [.flt 0, .flt 2]) none true (.str "absolute") 0 (.int 1) = .ok e ∧
    ∃ p, e.percentile exExt 2 = .ok p ∧ ∃ q, e.percentile exExt 3 = .ok q ∧ q < p := by
  decide +kernel

/-- Non-vacuity of the hypotheses of `C08_percentile_partial`. -/
example : ∃ e : Elem ℚ,
    mkElem "a" [0, 2] (.tuple [.flt 0, .flt 2]) none true (.str "absolute") 0 (.int 1) = .ok e ∧
    e.cache = none ∧ e.grid.vals.head? = some 0 ∧ e.grid.vals.getLast? = some 2 ∧
    ∃ p, e.percentile exExt (1/2) = .ok p ∧ ∃ q, e.percentile exExt 1 = .ok q ∧ p < q := by
  decide +kernel

example : ∀ vals pdf, exExt.kde vals = .ok pdf → ∀ v, 0 < pdf v := by
  intro vals pdf h v; cases h; exact one_pos

/-! ## C11 -/

/-- Step directions of reachable features are -1, 0 or 1. -/
theorem Elem.Reachable.stepDir_cases {ext : Ext K} {e : Elem K} (h : e.Reachable ext) :
    e.stepDir = 1 ∨ e.stepDir = -1 ∨ e.stepDir = 0 := by
  have hs : ∀ x : K, sgn x = 1 ∨ sgn x = -1 ∨ sgn x = 0 := fun x => by
    rcases sgn_cases x with h | h | h
    · exact Or.inl h.1
    · exact Or.inr (Or.inl h.1)
    · exact Or.inr (Or.inr h.1)
  induction h with
  | mk h =>
    obtain ⟨-, -, -, -, -, -, -, hd, -⟩ := mkElem_spec h
    rw [hd]; exact hs _
  | @set e e' attr v hr h ih =>
    unfold Elem.setAttr Elem.setLb Elem.setUb at h
    split at h
    all_goals try split at h
    all_goals first
      | (obtain ⟨a, -, h⟩ := bind_ok_iff.mp h; cases h; first | exact ih | exact hs _)
      | (cases h; exact ih)
      | cases h
  | update hr h ih =>
    unfold Elem.updateGrid at h
    obtain ⟨g, -, h⟩ := bind_ok_iff.mp h
    cases h; exact ih
  | touch hr ih =>
    obtain ⟨c, hc⟩ := fillCache_eq ext _
    rw [hc]; exact ih
  | interp hr h ih =>
    obtain ⟨c, rfl⟩ := updateInterpolator_eq h
    exact ih

/-- **C11**: for a feature aligned to coefficient `w` and desired outcome `y`, `compatible` is `True` iff
the feature is actionable, `w ≠ 0` and the step direction is not opposite to the improving direction;
if it is `False`, no permitted value improves the score towards `y`; if it is `True`, every grid value
that improves the score is offered. -/
theorem C11_compatible {ext : Ext K} {e : Elem K} (hr : e.Reachable ext) {w : K} {y : Int}
    (hy : y = 1 ∨ y = -1) (hf : e.flip = some (y * sgn w)) :
    (e.compatible = some true ∨ e.compatible = some false) ∧
    (e.compatible = some true ↔
      e.actionable = true ∧ w ≠ 0 ∧ ¬ (e.stepDir = 1 ∧ (y : K) * w < 0) ∧
        ¬ (e.stepDir = -1 ∧ 0 < (y : K) * w)) ∧
    (e.compatible = some false → ∀ x v, Permitted e x v → (y : K) * (w * (v - x)) ≤ 0) ∧
    (e.compatible = some true → ∀ x, FitsGrid e x → ∀ v ∈ e.grid.vals, 0 < (y : K) * (w * (v - x)) →
      v ∈ e.feasX x true) := by
  have hfl : (y * sgn w = 1 ∧ 0 < (y : K) * w) ∨ (y * sgn w = -1 ∧ (y : K) * w < 0) ∨
      (y * sgn w = 0 ∧ w = 0) := by
    rcases hy with rfl | rfl <;> rcases sgn_cases w with ⟨h1, h2⟩ | ⟨h1, h2⟩ | ⟨h1, h2⟩ <;>
      simp [h1, h2]
  have hc : e.compatible = if e.actionable = true then
      some (!(decide (y * sgn w = 0) || decide (y * sgn w * e.stepDir = -1))) else some false := by
    unfold Elem.compatible
    rw [hf]
    cases e.actionable <;> simp
  have hiff : e.compatible = some true ↔
      e.actionable = true ∧ w ≠ 0 ∧ ¬ (e.stepDir = 1 ∧ (y : K) * w < 0) ∧
        ¬ (e.stepDir = -1 ∧ 0 < (y : K) * w) := by
    rw [hc]
    rcases hfl with ⟨h1, h2⟩ | ⟨h1, h2⟩ | ⟨h1, h2⟩
    · have : w ≠ 0 := by rintro rfl; simp at h2
      rcases hr.stepDir_cases with hd | hd | hd <;>
        cases e.actionable <;> simp [h1, hd, this, not_lt.mpr h2.le, h2]
    · have : w ≠ 0 := by rintro rfl; simp at h2
      rcases hr.stepDir_cases with hd | hd | hd <;>
        cases e.actionable <;> simp [h1, hd, this, not_lt.mpr h2.le, h2]
    · cases e.actionable <;> simp [h2]
  refine ⟨?_, hiff, ?_, ?_⟩
  · rw [hc]; cases e.actionable
    · right; rfl
    · simp only [if_true]
      cases !(decide (y * sgn w = 0) || decide (y * sgn w * e.stepDir = -1)) <;> simp
  · intro hcf x v hp
    have hn : ¬ e.compatible = some true := by rw [hcf]; simp
    rw [hiff] at hn
    rcases hp with rfl | ⟨ha, -, hd1, hd2⟩
    · simp
    · by_cases hw : w = 0
      · simp [hw]
      · have hn' : (e.stepDir = 1 ∧ (y : K) * w < 0) ∨ (e.stepDir = -1 ∧ 0 < (y : K) * w) := by
          by_contra hcon
          rw [not_or] at hcon
          exact hn ⟨ha, hw, hcon.1, hcon.2⟩
        rcases hn' with ⟨h1, h2⟩ | ⟨h1, h2⟩
        · have := hd1 (by omega)
          have h3 := mul_nonpos_of_nonpos_of_nonneg h2.le (sub_nonneg.mpr this)
          rwa [mul_assoc] at h3
        · have := hd2 (by omega)
          have h3 := mul_nonpos_of_nonneg_of_nonpos h2.le (sub_nonpos.mpr this)
          rwa [mul_assoc] at h3
  · intro hct x hx v hv himp
    rw [hiff] at hct
    obtain ⟨ha, hw, hd1, hd2⟩ := hct
    rw [← mul_assoc] at himp
    have hside : (0 < (y : K) * w ∧ x < v) ∨ ((y : K) * w < 0 ∧ v < x) := by
      rcases pos_and_pos_or_neg_and_neg_of_mul_pos himp with ⟨h1, h2⟩ | ⟨h1, h2⟩
      · exact Or.inl ⟨h1, sub_pos.mp h2⟩
      · exact Or.inr ⟨h1, sub_neg.mp h2⟩
    rw [mem_feasX fun _ => hx]
    refine ⟨Or.inr ⟨ha, hv, ?_, ?_⟩, fun _ f hff => ?_⟩
    · intro hpos
      have hd : e.stepDir = 1 := by rcases hr.stepDir_cases with h | h | h <;> omega
      rcases hside with h | h
      · exact h.2.le
      · exact absurd ⟨hd, h.1⟩ hd1
    · intro hneg
      have hd : e.stepDir = -1 := by rcases hr.stepDir_cases with h | h | h <;> omega
      rcases hside with h | h
      · exact absurd ⟨hd, h.1⟩ hd2
      · exact h.2.le
    · rw [hf] at hff
      cases hff
      rcases hfl with ⟨h1, h2⟩ | ⟨h1, h2⟩ | ⟨h1, h2⟩
      · rcases hside with h | h
        · exact ⟨fun _ => h.2.le, fun hh => by omega⟩
        · exact absurd h.1 (not_lt.mpr h2.le)
      · rcases hside with h | h
        · exact absurd h.1 (not_lt.mpr h2.le)
        · exact ⟨fun hh => by omega, fun _ => h.2.le⟩
      · exact absurd h2 hw

/-- Non-vacuity of C11: an aligned feature that is compatible, and one that is not. -/
example : ∃ e : Elem ℚ,
    mkElem "a" [0, 2] (.tuple [.flt 0, .flt 2]) none true (.str "absolute") 1 (.int 1) = .ok e ∧
    (∃ e', e.setAttr "flip_direction" (.int 1) = .ok e' ∧ e'.flip = some (1 * sgn (3 : ℚ)) ∧
      e'.compatible = some true) ∧
    (∃ e', e.setAttr "flip_direction" (.int (-1)) = .ok e' ∧ e'.flip = some (-1 * sgn (3 : ℚ)) ∧
      e'.compatible = some false) := by decide +kernel

end Recourse
