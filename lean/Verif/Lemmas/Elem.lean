import Verif.Spec
import Verif.Lemmas.Num
import Verif.Lemmas.Except

/-! # Lemmas on features -/

set_option linter.unusedSectionVars false

namespace Recourse

variable {K : Type} [Field K] [LinearOrder K] [IsStrictOrderedRing K] [FloorRing K]

theorem mkBound_le {bt lb ub : PyVal K} {values : Option (List K)} {vt : Option VType} {b : Bound K}
    (h : mkBound bt lb ub values vt = .ok b) : b.lb ≤ b.ub := by
  unfold mkBound at h
  simp only [bind_ok_iff] at h
  obtain ⟨vt', -, bt', -, p, -, u, hle, h⟩ := h
  rw [pyAssert_ok_iff, decide_eq_true_eq] at hle
  split_ifs at h
  · cases h
    simp only
    have h1 : ((⌊p.1⌋ : ℤ) : K) ≤ p.1 := Int.floor_le _
    have h2 : p.2.1 ≤ ((⌈p.2.1⌉ : ℤ) : K) := Int.le_ceil _
    exact h1.trans (hle.trans h2)
  · cases h
    exact hle

theorem parseBounds_le {values : List K} {v : PyVal K} {b : Bound K}
    (h : parseBounds values v = .ok b) : b.lb ≤ b.ub := by
  unfold parseBounds at h
  split at h <;> first | exact mkBound_le h | cases h

theorem parseStepSize_pos {st : StepType} {v : PyVal K} {s : K} (h : parseStepSize st v = .ok s) :
    0 < s := by
  unfold parseStepSize at h
  simp only [bind_ok_iff, pyAssert_ok_iff, decide_eq_true_eq] at h
  obtain ⟨s', -, u, hs, _, _, h⟩ := h
  cases h; exact hs

/-- The invariant of a feature's attributes. -/
structure Elem.Attrs (e : Elem K) : Prop where
  bounds : e.bounds.lb ≤ e.bounds.ub
  step : 0 < e.stepSize

/-- The invariant of a feature's grid. -/
structure Elem.GridOk (e : Elem K) : Prop where
  ne : e.grid.vals ≠ []
  sorted : e.grid.vals.Pairwise (· < ·)
  int : e.grid.isInt = true → ∀ v ∈ e.grid.vals, ∃ z : ℤ, (z : K) = v

theorem mkGrid_eq {e : Elem K} {g : Grid K} (ha : e.Attrs)
    (h : mkGrid e.vtype e.bounds.lb e.bounds.ub e.stepType e.stepSize = .ok g) :
    GridShape { e with grid := g } ∧ (g.isInt = true ↔ e.vtype = .int) := by
  unfold mkGrid at h
  simp only [bind_ok_iff] at h
  obtain ⟨l, hl, h⟩ := h
  have hp : gridParams e.vtype e.bounds.lb e.bounds.ub e.stepType e.stepSize
      = (specLo e, specHi e, specStep e) := by
    unfold gridParams specLo specHi specStep specRawStep specLo specHi
    by_cases hv : e.vtype = .int <;> simp [hv]
  rw [hp] at hl
  simp only at hl
  have hlh : specLo e ≤ specHi e := by
    unfold specLo specHi
    split_ifs
    · exact (Int.floor_le _).trans (ha.bounds.trans (Int.le_ceil _))
    · exact ha.bounds
  have hs0 : 0 ≤ specStep e := by
    have h1 : 0 ≤ specRawStep e := by
      unfold specRawStep
      split_ifs
      · exact mul_nonneg ha.step.le (sub_nonneg.mpr hlh)
      · exact ha.step.le
    unfold specStep
    split_ifs
    · exact_mod_cast Int.ceil_nonneg h1
    · exact h1
  have hs : 0 < specStep e := by
    rcases hs0.lt_or_eq with h0 | h0
    · exact h0
    · rw [arange, if_pos h0.symm] at hl; cases hl
  obtain ⟨n, hn, h1, h2⟩ := arange_spec hs hlh
  rw [hn] at hl
  cases hl
  refine ⟨⟨hs, n, ?_, h1, h2⟩, ?_⟩
  · split_ifs at h with hv
    · cases h
      simp only [List.map_map]
      apply List.map_congr_left
      intro i _
      have key : trunc (specLo e + (i : K) * specStep e) = specLo e + (i : K) * specStep e := by
        have : specLo e + (i : K) * specStep e
            = ((⌊e.bounds.lb⌋ + (i : ℤ) * ⌈specRawStep e⌉ : ℤ) : K) := by
          simp [specLo, specStep, hv]
        rw [this, trunc_intCast]
      exact key
    · cases h; rfl
  · split_ifs at h with hv <;> cases h <;> simp [hv]

theorem GridShape.gridOk {e : Elem K} (h : GridShape e) (hi : e.grid.isInt = true → e.vtype = .int) :
    e.GridOk := by
  obtain ⟨hs, n, hn, -, -⟩ := h
  refine ⟨?_, ?_, ?_⟩
  · rw [hn]; simp
  · rw [hn]; exact progression_pairwise hs _
  · intro ht v hv
    rw [hn, List.mem_map] at hv
    obtain ⟨i, -, rfl⟩ := hv
    have := hi ht
    refine ⟨⌊e.bounds.lb⌋ + (i : ℤ) * ⌈specRawStep e⌉, ?_⟩
    simp [specLo, specStep, this]

theorem setAttr_attrs {e e' : Elem K} {attr : String} {v : PyVal K} (ha : e.Attrs)
    (h : e.setAttr attr v = .ok e') : e'.Attrs := by
  unfold Elem.setAttr at h
  split at h
  · obtain ⟨a, -, h⟩ := bind_ok_iff.mp h; cases h; exact ⟨ha.1, ha.2⟩
  · obtain ⟨a, -, h⟩ := bind_ok_iff.mp h; cases h; exact ⟨ha.1, ha.2⟩
  · obtain ⟨a, hb, h⟩ := bind_ok_iff.mp h; cases h; exact ⟨parseBounds_le hb, ha.2⟩
  · unfold Elem.setLb at h
    split at h <;> (obtain ⟨a, hb, h⟩ := bind_ok_iff.mp h; cases h; exact ⟨mkBound_le hb, ha.2⟩)
  · unfold Elem.setUb at h
    split at h <;> (obtain ⟨a, hb, h⟩ := bind_ok_iff.mp h; cases h; exact ⟨mkBound_le hb, ha.2⟩)
  · obtain ⟨a, -, h⟩ := bind_ok_iff.mp h; cases h; exact ⟨ha.1, ha.2⟩
  · obtain ⟨a, -, h⟩ := bind_ok_iff.mp h; cases h; exact ⟨ha.1, ha.2⟩
  · obtain ⟨a, -, h⟩ := bind_ok_iff.mp h; cases h; exact ⟨ha.1, ha.2⟩
  · obtain ⟨a, hb, h⟩ := bind_ok_iff.mp h; cases h; exact ⟨ha.1, parseStepSize_pos hb⟩
  · cases h
  · cases h
  · cases h; exact ⟨ha.1, ha.2⟩

theorem setAttr_grid {e e' : Elem K} {attr : String} {v : PyVal K}
    (h : e.setAttr attr v = .ok e') : e'.grid = e.grid ∧ e'.cache = e.cache ∧ e'.values = e.values
      ∧ e'.name = e.name := by
  unfold Elem.setAttr Elem.setLb Elem.setUb at h
  split at h
  all_goals try split at h
  all_goals first
    | (obtain ⟨a, -, h⟩ := bind_ok_iff.mp h; cases h; exact ⟨rfl, rfl, rfl, rfl⟩)
    | (cases h; exact ⟨rfl, rfl, rfl, rfl⟩)
    | cases h

theorem mkElem_spec {name : String} {values : List K} {bounds : PyVal K} {vt : Option VType}
    {act : Bool} {st : PyVal K} {sd : K} {ss : PyVal K} {e : Elem K}
    (h : mkElem name values bounds vt act st sd ss = .ok e) :
    e.Attrs ∧ GridShape e ∧ (e.grid.isInt = true ↔ e.vtype = .int) ∧ e.name = name ∧
      e.values = npSort values ∧ e.vtype = vt.getD (determineType (npSort values)) ∧
      e.actionable = act ∧ e.stepDir = sgn sd ∧ e.flip = none ∧ e.cache = none := by
  unfold mkElem at h
  simp only [bind_ok_iff] at h
  obtain ⟨_, -, _, -, b, hb, st', -, s, hs, g, hg, _, -, h⟩ := h
  cases h
  have ha : Elem.Attrs (⟨name, npSort values, vt.getD (determineType (npSort values)), act, b, st', s,
      sgn sd, none, g, none, []⟩ : Elem K) := ⟨parseBounds_le hb, parseStepSize_pos hs⟩
  have := mkGrid_eq (g := g) ha hg
  exact ⟨ha, this.1, this.2, rfl, rfl, rfl, rfl, rfl, rfl, rfl⟩

theorem updateGrid_spec {e e' : Elem K} (ha : e.Attrs) (h : e.updateGrid = .ok e') :
    e'.Attrs ∧ GridShape e' ∧ (e'.grid.isInt = true ↔ e'.vtype = .int) := by
  unfold Elem.updateGrid at h
  obtain ⟨g, hg, h⟩ := bind_ok_iff.mp h
  cases h
  have := mkGrid_eq ha hg
  exact ⟨⟨ha.1, ha.2⟩, this.1, this.2⟩

theorem fillCache_eq (ext : Ext K) (e : Elem K) :
    ∃ c, e.fillCache ext = { e with cache := c } := by
  unfold Elem.fillCache
  split
  · exact ⟨_, rfl⟩
  · exact ⟨e.cache, rfl⟩

theorem updateInterpolator_eq {ext : Ext K} {e e' : Elem K} {l r : K}
    (h : e.updateInterpolator ext l r = .ok e') : ∃ c, e' = { e with cache := c } := by
  unfold Elem.updateInterpolator at h
  obtain ⟨t, -, h⟩ := bind_ok_iff.mp h
  cases h; exact ⟨_, rfl⟩

/-- Every reachable feature satisfies the invariants. -/
theorem Elem.Reachable.inv {ext : Ext K} {e : Elem K} (h : e.Reachable ext) : e.Attrs ∧ e.GridOk := by
  induction h with
  | mk h =>
    obtain ⟨h1, h2, h3, -⟩ := mkElem_spec h
    exact ⟨h1, h2.gridOk h3.mp⟩
  | set hr h ih =>
    refine ⟨setAttr_attrs ih.1 h, ?_⟩
    have := (setAttr_grid h).1
    exact ⟨by rw [this]; exact ih.2.1, by rw [this]; exact ih.2.2, by rw [this]; exact ih.2.3⟩
  | update hr h ih =>
    obtain ⟨h1, h2, h3⟩ := updateGrid_spec ih.1 h
    exact ⟨h1, h2.gridOk h3.mp⟩
  | touch hr ih =>
    obtain ⟨c, hc⟩ := fillCache_eq ext _
    rw [hc]
    exact ⟨⟨ih.1.1, ih.1.2⟩, ⟨ih.2.1, ih.2.2, ih.2.3⟩⟩
  | interp hr h ih =>
    obtain ⟨c, rfl⟩ := updateInterpolator_eq h
    exact ⟨⟨ih.1.1, ih.1.2⟩, ⟨ih.2.1, ih.2.2, ih.2.3⟩⟩

/-! ## Offered values -/

/-- The values kept by `drop_suboptimal`. -/
def KeepFlip (e : Elem K) (drop : Bool) (x v : K) : Prop :=
  drop = true → ∀ f ∈ e.flip, DirOk f x v

theorem mem_dirFilter {l : List K} {d : Int} {x v : K} :
    v ∈ dirFilter d x l ↔ v ∈ l ∧ DirOk d x v := by
  unfold DirOk dirFilter
  split_ifs with h1 h2
  · simp [h1, not_lt.mpr h1.le]
  · simp [h2, h1]
  · simp [h1, h2]

theorem dirFilter_pairwise {l : List K} {d : Int} {x : K} {R : K → K → Prop} (hl : l.Pairwise R) :
    (dirFilter d x l).Pairwise R := by
  unfold dirFilter
  split_ifs
  · exact hl.filter _
  · exact hl.filter _
  · exact hl

theorem mem_feasX_base {e : Elem K} {drop : Bool} {x v : K} :
    v ∈ e.feasX x drop ↔ v ∈ e.baseX x ∧ KeepFlip e drop x v := by
  unfold KeepFlip Elem.feasX
  cases drop
  · simp
  · cases hf : e.flip with
    | none => simp
    | some f => simp [mem_dirFilter]

theorem insPoint {e : Elem K} {x : K} (hx : FitsGrid e x) :
    (if e.grid.isInt = true then trunc x else x) = x := by
  split_ifs with hi
  · obtain ⟨z, rfl⟩ := hx hi; simp
  · rfl

theorem mem_baseX {e : Elem K} {x v : K} (hx : e.actionable = true → FitsGrid e x) :
    v ∈ e.baseX x ↔ Permitted e x v := by
  unfold Elem.baseX Permitted
  by_cases ha : e.actionable = true
  · simp only [ha, if_true, true_and]
    rw [insPoint (hx ha)]
    split_ifs with hm
    · rw [mem_dirFilter] at hm ⊢
      constructor
      · exact Or.inr
      · rintro (rfl | h)
        · exact hm
        · exact h
    · rw [mem_npInsert, mem_dirFilter]
  · simp only [Bool.not_eq_true] at ha
    simp [ha]

/-- The offered values, for points the grid type can hold. -/
theorem mem_feasX {e : Elem K} {x v : K} {drop : Bool} (hx : e.actionable = true → FitsGrid e x) :
    v ∈ e.feasX x drop ↔ Permitted e x v ∧ KeepFlip e drop x v := by
  rw [mem_feasX_base, mem_baseX hx]

theorem baseX_pairwise {e : Elem K} {x : K} (hg : e.grid.vals.Pairwise (· < ·))
    (hx : e.actionable = true → FitsGrid e x) : (e.baseX x).Pairwise (· < ·) := by
  unfold Elem.baseX
  by_cases ha : e.actionable = true
  · simp only [ha, if_true]
    rw [insPoint (hx ha)]
    split_ifs with hm
    · exact dirFilter_pairwise hg
    · exact npInsert_searchsorted_pairwise (dirFilter_pairwise hg) hm
  · simp only [Bool.not_eq_true] at ha
    simp [ha]

theorem feasX_pairwise {e : Elem K} {x : K} {drop : Bool} (hg : e.grid.vals.Pairwise (· < ·))
    (hx : e.actionable = true → FitsGrid e x) : (e.feasX x drop).Pairwise (· < ·) := by
  unfold Elem.feasX
  split
  · exact dirFilter_pairwise (baseX_pairwise hg hx)
  · exact baseX_pairwise hg hx

end Recourse
