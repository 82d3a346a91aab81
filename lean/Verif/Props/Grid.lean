import Verif.Lemmas.Bounds
import Verif.Examples

/-!
# Properties C01, C02, C03, C09, C10: bounds, grids, variable types
-/

set_option linter.unusedSectionVars false

namespace Recourse

variable {K : Type} [Field K] [LinearOrder K] [IsStrictOrderedRing K] [FloorRing K]

/-! ## C01 -/

/-- What C01 says about the grid of a feature, spelled out. -/
def GridIsProgression (e : Elem K) : Prop :=
  0 < specStep e ∧
  (∃ n : ℕ, e.grid.vals = (List.range n).map fun (i : ℕ) => specLo e + (i : K) * specStep e) ∧
  e.grid.vals.Pairwise (· < ·) ∧
  e.grid.vals.head? = some (specLo e) ∧
  ∃ last, e.grid.vals.getLast? = some last ∧ specHi e ≤ last ∧ last < specHi e + specStep e

theorem GridShape.progression {e : Elem K} (h : GridShape e) : GridIsProgression e := by
  obtain ⟨hs, n, hn, h1, h2⟩ := h
  refine ⟨hs, ⟨n + 1, hn⟩, ?_, ?_, specLo e + (n : K) * specStep e, ?_, h1, h2⟩
  · rw [hn]; exact progression_pairwise hs _
  · rw [hn]; simp [List.range_succ_eq_map]
  · rw [hn]; simp [List.range_succ]

/-- **C01**, construction: the grid of a newly constructed feature is the arithmetic progression from
the lower bound with the effective step, strictly increasing, ending at the first point that reaches
the upper bound. -/
theorem C01_grid_shape_new {name : String} {values : List K} {bounds : PyVal K} {vt : Option VType}
    {act : Bool} {st : PyVal K} {sd : K} {ss : PyVal K} {e : Elem K}
    (h : mkElem name values bounds vt act st sd ss = .ok e) : GridIsProgression e :=
  (mkElem_spec h).2.1.progression

/-- **C01**, `update_grid()`: the same after any history of attribute assignments. -/
theorem C01_grid_shape_update {ext : Ext K} {e e' : Elem K} (hr : e.Reachable ext)
    (h : e.updateGrid = .ok e') : GridIsProgression e' :=
  (updateGrid_spec hr.inv.1 h).2.1.progression

/-- For a feature typed by its data (`variable_type` not overridden), the rounding in `specLo`/`specHi`
is void: the progression starts exactly at `lb` and is measured against `ub`. -/
theorem C01_bounds_exact {name : String} {values : List K} {bounds : PyVal K}
    {act : Bool} {st : PyVal K} {sd : K} {ss : PyVal K} {e : Elem K}
    (h : mkElem name values bounds none act st sd ss = .ok e) :
    specLo e = e.bounds.lb ∧ specHi e = e.bounds.ub := by
  have hv : e.vtype = determineType e.values := by
    obtain ⟨-, -, -, -, hv, ht, -⟩ := mkElem_spec h
    rw [hv, ht]; rfl
  have hb : parseBounds e.values bounds = .ok e.bounds := by
    unfold mkElem at h
    simp only [bind_ok_iff] at h
    obtain ⟨_, -, _, -, b, hb, st', -, s, hs, g, hg, _, -, h⟩ := h
    cases h
    exact hb
  by_cases hi : e.vtype = .int
  · have key : ∀ bt lb ub, mkBound bt lb ub (some e.values) none = .ok e.bounds →
        specLo e = e.bounds.lb ∧ specHi e = e.bounds.ub := by
      intro bt lb ub hm
      unfold mkBound at hm
      simp only [bind_ok_iff] at hm
      obtain ⟨vt', hvt, bt', -, p, -, _, -, hm⟩ := hm
      have : vt' = .int := by
        simp only [boundVType] at hvt; cases hvt; rw [← hv]; exact hi
      rw [if_pos this] at hm
      injection hm with hm
      rw [specLo, specHi, if_pos hi, if_pos hi, ← hm]
      simp
    unfold parseBounds at hb
    split at hb <;> first | exact key _ _ _ hb | cases hb
  · simp [specLo, specHi, hi]

/-- Non-vacuity of C01: a real-valued feature with bounds `[0, 1]` and relative step `1/4`, built, then
re-bounded and updated. -/
example : ∃ e e1 e2 : Elem ℚ, e1.Reachable exExt ∧ e1.updateGrid = .ok e2 ∧
    mkElem "a" [0, 1/2, 3] (.tuple [.flt 0, .flt 1]) none true (.str "relative") 0 (.flt (1/4)) = .ok e ∧
    e.grid.vals = [0, 1/4, 1/2, 3/4, 1] ∧ e2.grid.vals = [1, 5/4, 3/2, 7/4, 2] := by
  obtain ⟨e, he, hg, e1, h1, e2, h2, hg2⟩ : ∃ e : Elem ℚ,
      mkElem "a" [0, 1/2, 3] (.tuple [.flt 0, .flt 1]) none true (.str "relative") 0 (.flt (1/4)) = .ok e ∧
      (e.grid.vals = [0, 1/4, 1/2, 3/4, 1] ∧ ∃ e1, e.setAttr "bounds" (.tuple [.flt 1, .flt 2]) = .ok e1 ∧
      ∃ e2, e1.updateGrid = .ok e2 ∧ e2.grid.vals = [1, 5/4, 3/2, 7/4, 2]) := by decide +kernel
  exact ⟨e, e1, e2, .set (.mk he) h1, h2, he, hg, hg2⟩

/-! ## C02 -/

/-- Every offered grid value lies between the bounds (rounded outwards for integer features). -/
def GridWithinBounds (e : Elem K) : Prop := ∀ v ∈ e.grid.vals, specLo e ≤ v ∧ v ≤ specHi e

theorem GridShape.within_iff {e : Elem K} (h : GridShape e) :
    GridWithinBounds e ↔ ∃ k : ℕ, specHi e - specLo e = (k : K) * specStep e := by
  obtain ⟨hs, n, hn, h1, h2⟩ := h
  constructor
  · intro hw
    refine ⟨n, ?_⟩
    have := (hw (specLo e + (n : K) * specStep e) (by rw [hn]; exact List.mem_map.mpr ⟨n, by simp, rfl⟩)).2
    linarith
  · rintro ⟨k, hk⟩ v hv
    rw [hn, List.mem_map] at hv
    obtain ⟨i, hi, rfl⟩ := hv
    rw [List.mem_range] at hi
    have hkn : n ≤ k := by
      by_contra hc
      have : ((k + 1 : ℕ) : K) ≤ (n : K) := by exact_mod_cast Nat.lt_of_not_le hc
      have := mul_le_mul_of_nonneg_right this hs.le
      push_cast at this
      linarith
    have hi' : (i : K) ≤ (k : K) := by exact_mod_cast (by omega : i ≤ k)
    have := mul_le_mul_of_nonneg_right hi' hs.le
    have h0 : 0 ≤ (i : K) * specStep e := mul_nonneg (Nat.cast_nonneg _) hs.le
    constructor
    · linarith
    · linarith

/-- **C02** (partial).  The full property, `GridWithinBounds e` for every constructed feature, is false
(`C02_within_bounds_refuted`).  Proved: it holds exactly when the effective step divides the range;
otherwise some offered value is strictly above the upper bound. -/
theorem C02_within_bounds_partial {ext : Ext K} {e e' : Elem K} (hr : e.Reachable ext)
    (h : e.updateGrid = .ok e') :
    (GridWithinBounds e' ↔ ∃ k : ℕ, specHi e' - specLo e' = (k : K) * specStep e') ∧
    (¬ (∃ k : ℕ, specHi e' - specLo e' = (k : K) * specStep e') →
      ∃ v ∈ e'.grid.vals, specHi e' < v) := by
  have hs := (updateGrid_spec hr.inv.1 h).2.1
  refine ⟨hs.within_iff, fun hk => ?_⟩
  obtain ⟨hs0, n, hn, h1, h2⟩ := hs
  refine ⟨specLo e' + (n : K) * specStep e', by rw [hn]; exact List.mem_map.mpr ⟨n, by simp, rfl⟩, lt_of_le_of_ne h1 ?_⟩
  intro he
  exact hk ⟨n, by rw [he]; ring⟩

/-- The same for newly constructed features. -/
theorem C02_within_bounds_new_partial {name : String} {values : List K} {bounds : PyVal K}
    {vt : Option VType} {act : Bool} {st : PyVal K} {sd : K} {ss : PyVal K} {e : Elem K}
    (h : mkElem name values bounds vt act st sd ss = .ok e) :
    GridWithinBounds e ↔ ∃ k : ℕ, specHi e - specLo e = (k : K) * specStep e :=
  (mkElem_spec h).2.1.within_iff

/-- **C02** refuted: an integer feature with bounds `[0, 151]` and the default relative step of 1% is
offered the value 152. -/
theorem C02_within_bounds_refuted : ∃ e : Elem ℚ,
    mkElem "age" [0, 151] (.tuple [.int 0, .int 151]) none true (.str "relative") 0 (.flt (1/100))
      = .ok e ∧ e.bounds.ub = 151 ∧ (152 : ℚ) ∈ e.grid.vals ∧ ¬ GridWithinBounds e := by
  unfold GridWithinBounds; decide +kernel

/-- Non-vacuity of the partial theorem (a feature where the step divides the range). -/
example : ∃ e : Elem ℚ,
    mkElem "a" [0, 1/2, 3] (.tuple [.flt 0, .flt 1]) none true (.str "relative") 0 (.flt (1/4)) = .ok e ∧
    ∃ k : ℕ, specHi e - specLo e = (k : ℚ) * specStep e := by
  obtain ⟨e, h1, h2⟩ : ∃ e : Elem ℚ,
    mkElem "a" [0, 1/2, 3] (.tuple [.flt 0, .flt 1]) none true (.str "relative") 0 (.flt (1/4)) = .ok e ∧
    specHi e - specLo e = ((4 : ℕ) : ℚ) * specStep e := by decide +kernel
  exact ⟨e, h1, 4, h2⟩

/-! ## C03 -/

/-- The assignments of C03: bounds and steps. -/
def boundAttrs : List Attr := [.bounds, .lb, .ub, .stepSize, .stepType, .variableType]

/-- A sequence of accepted attribute assignments. -/
def runAssignments (e : Elem K) : List (String × PyVal K) → Except Err (Elem K)
  | [] => .ok e
  | (a, v) :: t => do runAssignments (← e.setAttr a v) t

theorem setAttr_bound_same {e e' : Elem K} {a : String} {v : PyVal K} (ha : attrOf a ∈ boundAttrs)
    (h : e.setAttr a v = .ok e') :
    e'.actionable = e.actionable ∧ e'.stepDir = e.stepDir ∧ e'.flip = e.flip := by
  unfold Elem.setAttr Elem.setLb Elem.setUb at h
  split at h
  all_goals try split at h
  all_goals first
    | (obtain ⟨a, -, h⟩ := bind_ok_iff.mp h; cases h; exact ⟨rfl, rfl, rfl⟩)
    | (rename_i hh; rw [hh] at ha; simp [boundAttrs] at ha)

theorem feasX_congr {e e' : Elem K} (hg : e'.grid = e.grid) (ha : e'.actionable = e.actionable)
    (hs : e'.stepDir = e.stepDir) (hf : e'.flip = e.flip) (x : K) (drop : Bool) :
    e'.feasX x drop = e.feasX x drop := by
  simp only [Elem.feasX, Elem.baseX, hg, ha, hs, hf]

/-- **C03** (partial).  The full property (assignments change the offered values) is false: after any
sequence of assignments to `bounds`, `lb`, `ub`, `step_size`, `step_type`, `variable_type` the offered
values at every point are exactly those offered before. -/
theorem C03_setters_inert_partial (ops : List (String × PyVal K)) {e e' : Elem K}
    (hops : ∀ p ∈ ops, attrOf p.1 ∈ boundAttrs) (h : runAssignments e ops = .ok e') (x : K)
    (drop : Bool) : e'.feasX x drop = e.feasX x drop ∧ e'.grid = e.grid := by
  induction ops generalizing e with
  | nil => cases h; exact ⟨rfl, rfl⟩
  | cons p t ih =>
    obtain ⟨a, v⟩ := p
    obtain ⟨e1, h1, h2⟩ := bind_ok_iff.mp h
    have hm := setAttr_bound_same (hops (a, v) List.mem_cons_self) h1
    have hg := (setAttr_grid h1).1
    obtain ⟨i1, i2⟩ := ih (fun p hp => hops p (List.mem_cons_of_mem _ hp)) h2
    exact ⟨i1.trans (feasX_congr hg hm.1 hm.2.1 hm.2.2 x drop), i2.trans hg⟩

/-- **C03**, the positive half: `update_grid()` makes the current attributes effective, after any
history (`C01_grid_shape_update`); nothing but the grid changes. -/
theorem C03_update_effective {ext : Ext K} {e e' : Elem K} (hr : e.Reachable ext)
    (h : e.updateGrid = .ok e') : GridIsProgression e' ∧ { e' with grid := e.grid } = e := by
  refine ⟨C01_grid_shape_update hr h, ?_⟩
  unfold Elem.updateGrid at h
  obtain ⟨g, -, h⟩ := bind_ok_iff.mp h
  cases h; rfl

/-- **C03** refuted: after `e.ub = 1` the feature is still offered the value 2. -/
theorem C03_setters_refuted : ∃ e : Elem ℚ,
    mkElem "a" [0, 1/2, 2] (.tuple [.flt 0, .flt 2]) none true (.str "absolute") 0 (.flt (1/2)) = .ok e ∧
    ∃ e', e.setAttr "ub" (.flt 1) = .ok e' ∧ e'.bounds.ub = 1 ∧ (2 : ℚ) ∈ e'.feasX 0 true := by
  decide +kernel

example : attrOf "ub" ∈ boundAttrs ∧ attrOf "step_size" ∈ boundAttrs ∧ attrOf "bounds" ∈ boundAttrs := by
  decide +kernel

/-! ## C09 -/

/-- The number denoted by a bound argument. -/
def IsNumber (v : PyVal K) (x : K) : Prop :=
  v = .flt x ∨ (∃ i : ℤ, v = .int i ∧ (i : K) = x)

/-- `m` is the smallest / largest value of the data. -/
def IsLeast' (l : List K) (m : K) : Prop := m ∈ l ∧ ∀ v ∈ l, m ≤ v
def IsGreatest' (l : List K) (m : K) : Prop := m ∈ l ∧ ∀ v ∈ l, v ≤ m

/-- Rounding outwards for integer columns. -/
def outLo (values : List K) (x : K) : K := if determineType values = .int then ((⌊x⌋ : ℤ) : K) else x
def outHi (values : List K) (x : K) : K := if determineType values = .int then ((⌈x⌉ : ℤ) : K) else x

theorem boundNum_number {v : PyVal K} {x y : K} (hv : IsNumber v x) (h : boundNum v = .ok y) : y = x := by
  rcases hv with rfl | ⟨i, rfl, rfl⟩ <;> (cases h; rfl)

theorem mkBound_inv {bt lb ub : PyVal K} {values : List K} {b : Bound K}
    (h : mkBound bt lb ub (some values) none = .ok b) :
    ∃ bt' p, parseBType bt = .ok bt' ∧ boundPair bt' lb ub (some values) = .ok p ∧ p.1 ≤ p.2.1 ∧
      b.lb = outLo values p.1 ∧ b.ub = outHi values p.2.1 ∧ b.btype = bt' := by
  unfold mkBound at h
  simp only [bind_ok_iff, pyAssert_ok_iff, decide_eq_true_eq] at h
  obtain ⟨vt', hvt, bt', hbt, p, hp, _, hle, h⟩ := h
  cases hvt
  refine ⟨bt', p, hbt, hp, hle, ?_⟩
  unfold outLo outHi
  split_ifs at h with hi <;> (cases h; simp [hi])

theorem absNum_none {values : List K} {d : List K → K} {y : K}
    (h : absNum (some values) d .none = .ok y) : y = d values := by cases h; rfl

theorem absNum_number {values : Option (List K)} {d : List K → K} {v : PyVal K} {x y : K}
    (hv : IsNumber v x) (h : absNum values d v = .ok y) : y = x := by
  rcases hv with rfl | ⟨i, rfl, rfl⟩ <;> (cases h; rfl)

/-- **C09**, order: every accepted bounds object has `lb ≤ ub`. -/
theorem C09_bounds_ordered {bt lb ub : PyVal K} {values : Option (List K)} {vt : Option VType}
    {b : Bound K} (h : mkBound bt lb ub values vt = .ok b) : b.lb ≤ b.ub := mkBound_le h

/-- **C09**, absolute bounds without data: a missing lower or upper bound is refused (there is nothing to take it from). -/
theorem C09_bounds_missing {lb ub : PyVal K} {vt : Option VType} {b : Bound K} :
    mkBound (.str "absolute") .none ub none vt ≠ .ok b ∧ mkBound (.str "absolute") lb .none none vt ≠ .ok b := by
  constructor
  · intro h
    simp only [mkBound, bind_ok_iff] at h
    obtain ⟨t, -, bt, hbt, p, hp, -⟩ := h
    cases hbt
    simp only [boundPair, bind_ok_iff] at hp
    obtain ⟨l, hl, -⟩ := hp
    cases hl
  · intro h
    simp only [mkBound, bind_ok_iff] at h
    obtain ⟨t, -, bt, hbt, p, hp, -⟩ := h
    cases hbt
    simp only [boundPair, bind_ok_iff] at hp
    obtain ⟨l, -, u, hu, -⟩ := hp
    cases hu

/-- **C09**, absolute bounds: given numbers are stored verbatim (rounded outwards for integer columns). -/
theorem C09_bounds_absolute {lb ub : PyVal K} {values : List K} {b : Bound K} {l u : K}
    (h : mkBound (.str "absolute") lb ub (some values) none = .ok b) (hl : IsNumber lb l)
    (hu : IsNumber ub u) : b.lb = outLo values l ∧ b.ub = outHi values u ∧ l ≤ u := by
  obtain ⟨bt', p, hbt, hp, hle, h1, h2, -⟩ := mkBound_inv h
  cases hbt
  simp only [boundPair, bind_ok_iff] at hp
  obtain ⟨l', hl', u', hu', hp⟩ := hp
  cases hp
  have e1 := absNum_number hl hl'
  have e2 := absNum_number hu hu'
  subst e1 e2
  exact ⟨h1, h2, hle⟩

/-- **C09**, defaults: a missing absolute bound is the minimum / maximum of the data (rounded outwards
for integer columns). -/
theorem C09_bounds_default {ub lb : PyVal K} {values : List K} {b : Bound K} (hne : values ≠ []) :
    (mkBound (.str "absolute") .none ub (some values) none = .ok b →
      ∃ m, IsLeast' values m ∧ b.lb = outLo values m) ∧
    (mkBound (.str "absolute") lb .none (some values) none = .ok b →
      ∃ m, IsGreatest' values m ∧ b.ub = outHi values m) := by
  constructor
  · intro h
    obtain ⟨bt', p, hbt, hp, hle, h1, h2, -⟩ := mkBound_inv h
    cases hbt
    simp only [boundPair, bind_ok_iff] at hp
    obtain ⟨l', hl', u', hu', hp⟩ := hp
    cases hp; cases hl'
    exact ⟨npMin values, ⟨npMin_mem hne, fun v hv => npMin_le hv⟩, h1⟩
  · intro h
    obtain ⟨bt', p, hbt, hp, hle, h1, h2, -⟩ := mkBound_inv h
    cases hbt
    simp only [boundPair, bind_ok_iff] at hp
    obtain ⟨l', hl', u', hu', hp⟩ := hp
    cases hp; cases hu'
    exact ⟨npMax values, ⟨npMax_mem hne, fun v hv => le_npMax hv⟩, h2⟩

/-- **C09**, percentile bounds: they lie between the extreme values of the data (rounded outwards for
integer columns). -/
theorem C09_bounds_percentile {lb ub : PyVal K} {values : List K} {b : Bound K} {m M : K}
    (h : mkBound (.str "percentile") lb ub (some values) none = .ok b)
    (hm : IsLeast' values m) (hM : IsGreatest' values M) :
    outLo values m ≤ b.lb ∧ b.lb ≤ b.ub ∧ b.ub ≤ outHi values M := by
  have hne : values ≠ [] := by rintro rfl; exact absurd hm.1 (by simp)
  have em : m = npMin values := le_antisymm (hm.2 _ (npMin_mem hne)) (npMin_le hm.1)
  have eM : M = npMax values := le_antisymm (le_npMax hM.1) (hM.2 _ (npMax_mem hne))
  refine ⟨?_, mkBound_le h, ?_⟩
  all_goals
    obtain ⟨bt', p, hbt, hp, hle, h1, h2, -⟩ := mkBound_inv h
    cases hbt
    simp only [boundPair, bind_ok_iff, pyAssert_ok_iff, decide_eq_true_eq] at hp
    obtain ⟨l', hl', u', hu', _, hlr, _, hur, hp⟩ := hp
    cases hp
  · have := npPercentile_mono hne le_rfl hlr.1 hlr.2
    rw [npPercentile_zero hne] at this
    rw [h1, em]
    unfold outLo
    split_ifs
    · exact_mod_cast Int.floor_le_floor this
    · exact this
  · have := npPercentile_mono hne hur.1 hur.2 le_rfl
    rw [npPercentile_hundred hne] at this
    rw [h2, eM]
    unfold outHi
    split_ifs
    · exact_mod_cast Int.ceil_le_ceil this
    · exact this

/-- **C09**, acceptance: a percentile request with ranks `0 ≤ l ≤ u ≤ 100` is never rejected. -/
theorem C09_bounds_percentile_accepted {values : List K} (hne : values ≠ []) {l u : K}
    (h0 : 0 ≤ l) (hlu : l ≤ u) (hu : u ≤ 100) :
    ∃ b, mkBound (.str "percentile") (.flt l) (.flt u) (some values) none = .ok b := by
  have h1 : npPercentile values l ≤ npPercentile values u := npPercentile_mono hne h0 hlu hu
  simp only [mkBound, boundVType, parseBType, boundPair, boundNum, ok_bind,
    decide_eq_true (⟨h0, hlu.trans hu⟩ : 0 ≤ l ∧ l ≤ 100),
    decide_eq_true (⟨h0.trans hlu, hu⟩ : 0 ≤ u ∧ u ≤ 100), decide_eq_true h1, pyAssert_true]
  split_ifs <;> exact ⟨_, rfl⟩

example : ∃ b, mkBound (.str "percentile") (.int 1) (.int 99) (some [3, 1, (2 : ℚ), 10]) none = .ok b ∧
    b.lb = 1 ∧ b.ub = 10 ∧ IsLeast' [3, 1, (2 : ℚ), 10] 1 ∧ IsGreatest' [3, 1, (2 : ℚ), 10] 10 := by
  unfold IsLeast' IsGreatest'; decide +kernel

/-! ## C10 -/

/-- **C10**: the detected type of a column: `bool` iff every value is 0 or 1; `int` iff all values are
integers and some value is neither 0 nor 1; `float` iff some value is not an integer. -/
theorem C10_variable_type (values : List K) :
    (determineType values = .bool ↔ ∀ v ∈ values, v = 0 ∨ v = 1) ∧
    (determineType values = .int ↔
      (∀ v ∈ values, ∃ z : ℤ, (z : K) = v) ∧ ∃ v ∈ values, v ≠ 0 ∧ v ≠ 1) ∧
    (determineType values = .float ↔ ∃ v ∈ values, ∀ z : ℤ, (z : K) ≠ v) := by
  have h1 : values.all isIntegral = true ↔ ∀ v ∈ values, ∃ z : ℤ, (z : K) = v := by
    rw [List.all_eq_true]; exact forall₂_congr fun v _ => isIntegral_iff
  have h2 : values.all (fun v => decide (v = 0 ∨ v = 1)) = true ↔ ∀ v ∈ values, v = 0 ∨ v = 1 := by
    rw [List.all_eq_true]; simp
  have h3 : (∀ v ∈ values, v = 0 ∨ v = 1) → ∀ v ∈ values, ∃ z : ℤ, (z : K) = v := by
    intro h v hv
    rcases h v hv with rfl | rfl
    · exact ⟨0, by simp⟩
    · exact ⟨1, by simp⟩
  unfold determineType
  by_cases ha : values.all isIntegral = true
  · rw [if_pos ha]
    have ha' := h1.mp ha
    have hf : ¬ ∃ v ∈ values, ∀ z : ℤ, (z : K) ≠ v := by
      rintro ⟨v, hv, hz⟩; obtain ⟨z, hz'⟩ := ha' v hv; exact hz z hz'
    by_cases hb : values.all (fun v => decide (v = 0 ∨ v = 1)) = true
    · rw [if_pos hb]
      have hb' := h2.mp hb
      refine ⟨by simpa using hb', ?_, by simpa using hf⟩
      simp only [reduceCtorEq, false_iff, not_and, not_exists]
      rintro - v hv h0 h1
      rcases hb' v hv with h | h
      · exact h0 h
      · exact h1 h
    · rw [if_neg hb]
      have hb' := fun hh => hb (h2.mpr hh)
      refine ⟨by simpa using hb', ?_, by simpa using hf⟩
      simp only [true_iff]
      refine ⟨ha', ?_⟩
      by_contra hc
      push Not at hc
      exact hb' fun v hv => or_iff_not_imp_left.mpr (hc v hv)
  · rw [if_neg ha]
    have ha' := fun hh => ha (h1.mpr hh)
    refine ⟨?_, ?_, ?_⟩
    · simp only [reduceCtorEq, false_iff]; exact fun h => ha' (h3 h)
    · simp only [reduceCtorEq, false_iff]; exact fun h => ha' h.1
    · simp only [true_iff]
      by_contra hc
      push Not at hc
      exact ha' hc

/-- **C10**, invariance: the type depends only on the set of values, not on row order or repetition. -/
theorem C10_type_invariant {v w : List K} (h : ∀ x, x ∈ v ↔ x ∈ w) :
    determineType v = determineType w := by
  have key : ∀ (p : K → Bool), v.all p = w.all p := by
    intro p
    rw [Bool.eq_iff_iff, List.all_eq_true, List.all_eq_true]
    exact ⟨fun hh x hx => hh x ((h x).mpr hx), fun hh x hx => hh x ((h x).mp hx)⟩
  unfold determineType
  rw [key, key]

example : determineType [0, 1, (1 : ℚ)] = .bool ∧ determineType [0, 1, (2 : ℚ)] = .int ∧
    determineType [0, 1, (1/2 : ℚ)] = .float := by decide +kernel

end Recourse
