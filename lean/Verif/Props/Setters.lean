import Verif.Props.Grid

/-!
# Properties C09 (percentile values) and C62: what assignments to a feature's attributes mean
-/

set_option linter.unusedSectionVars false

namespace Recourse

variable {K : Type} [Field K] [LinearOrder K] [IsStrictOrderedRing K] [FloorRing K]

/-! ## C09: the value of a percentile bound -/

/-- `v` is the `q`-th percentile of the data with linear interpolation: with the data in increasing order
`s`, position `q/100 * (n - 1) = k + t`, `0 ≤ t < 1`, the value is on the segment from `s[k]` to
`s[k+1]` at fraction `t`. -/
def IsPercentile (values : List K) (q v : K) : Prop :=
  ∃ s : List K, s.Perm values ∧ s.Pairwise (· ≤ ·) ∧ ∃ (k : ℕ) (t a : K), 0 ≤ t ∧ t < 1 ∧
    q / 100 * ((values.length : K) - 1) = k + t ∧ s[k]? = some a ∧
    ((t = 0 ∧ v = a) ∨ ∃ b, s[k + 1]? = some b ∧ v = a + t * (b - a))

theorem isPercentile_np {values : List K} (hne : values ≠ []) {q : K} (h0 : 0 ≤ q) (h1 : q ≤ 100) :
    IsPercentile values q (npPercentile values q) := by
  have hlen : 1 ≤ values.length := List.length_pos_iff.mpr hne
  have hn : (1 : K) ≤ (values.length : K) := by exact_mod_cast hlen
  set pos : K := q / 100 * ((values.length : K) - 1) with hpos
  have hp0 : 0 ≤ pos := mul_nonneg (div_nonneg h0 (by norm_num)) (by linarith)
  have hp1 : pos ≤ (values.length : K) - 1 := by
    have : q / 100 ≤ 1 := by rw [div_le_one (by norm_num)]; exact h1
    calc pos ≤ 1 * ((values.length : K) - 1) := mul_le_mul_of_nonneg_right this (by linarith)
      _ = _ := one_mul _
  obtain ⟨k, hk⟩ : ∃ k : ℕ, ⌊pos⌋ = k := ⟨_, (Int.toNat_of_nonneg (Int.floor_nonneg.mpr hp0)).symm⟩
  have hk1 : (k : K) ≤ pos := by have := Int.floor_le pos; rw [hk] at this; exact_mod_cast this
  have hk2 : pos < (k : K) + 1 := by
    have := Int.lt_floor_add_one pos; rw [hk] at this; exact_mod_cast this
  have hkn : k < values.length := by
    have h2 : ((k + 1 : ℕ) : K) ≤ (values.length : K) := by push_cast; linarith
    exact_mod_cast h2
  have hkl : k < (npSort values).length := by rw [length_npSort]; exact hkn
  have hv : npPercentile values q = (npSort values).getD k 0
      + (pos - k) * ((npSort values).getD (min (k + 1) (values.length - 1)) 0
        - (npSort values).getD k 0) := by
    rw [npPercentile_eq, ← hpos]
    unfold interpPos
    rw [hk, length_npSort]; rfl
  refine ⟨npSort values, List.perm_insertionSort _ _, npSort_sorted _, k, pos - k, (npSort values)[k],
    by linarith, by linarith, by ring, List.getElem?_eq_getElem hkl, ?_⟩
  rw [List.getD_eq_getElem _ _ hkl] at hv
  by_cases hlast : k + 1 < values.length
  · right
    have hl2 : k + 1 < (npSort values).length := by rw [length_npSort]; exact hlast
    refine ⟨(npSort values)[k + 1], List.getElem?_eq_getElem hl2, ?_⟩
    rw [hv, show min (k + 1) (values.length - 1) = k + 1 by omega, List.getD_eq_getElem _ _ hl2]
  · left
    have hke : k = values.length - 1 := by omega
    have hkc : (k : K) = (values.length : K) - 1 := by
      rw [hke]; push_cast [hlen]; ring
    have ht : pos - k = 0 := by linarith
    exact ⟨ht, by rw [hv, ht, zero_mul, add_zero]⟩

/-- Absolute bounds as requested: `l ≤ u`, rounded outwards for integer columns. -/
def AbsBounds (values : List K) (l u : K) (b : Bound K) : Prop :=
  b.btype = .absolute ∧ l ≤ u ∧ b.lb = outLo values l ∧ b.ub = outHi values u

/-- Percentile bounds as requested: the `l`-th and `u`-th percentile of the data, rounded outwards for integer
columns. -/
def PctBounds (values : List K) (l u : K) (b : Bound K) : Prop :=
  b.btype = .percentile ∧ b.qlb = l ∧ b.qub = u ∧ (0 ≤ l ∧ l ≤ 100) ∧ (0 ≤ u ∧ u ≤ 100) ∧
  ∃ p q, IsPercentile values l p ∧ IsPercentile values u q ∧ p ≤ q ∧
    b.lb = outLo values p ∧ b.ub = outHi values q

theorem boundNum_of {v : PyVal K} {x : K} (h : IsNumber v x) : boundNum v = .ok x := by
  rcases h with rfl | ⟨i, rfl, rfl⟩ <;> rfl

theorem absNum_of {values : Option (List K)} {d : List K → K} {v : PyVal K} {x : K} (h : IsNumber v x) :
    absNum values d v = .ok x := by
  rcases h with rfl | ⟨i, rfl, rfl⟩ <;> rfl

theorem mkBound_abs {lb ub : PyVal K} {values : List K} {l u : K} (hl : IsNumber lb l)
    (hu : IsNumber ub u) :
    (l ≤ u → ∃ b, mkBound (.str "absolute") lb ub (some values) none = .ok b ∧ AbsBounds values l u b) ∧
    (u < l → mkBound (.str "absolute") lb ub (some values) none = .error .assertion) := by
  constructor
  · intro h
    have hb : ∃ b, mkBound (.str "absolute") lb ub (some values) none = .ok b := by
      simp only [mkBound, boundVType, parseBType, boundPair, absNum_of hl, absNum_of hu, ok_bind,
        decide_eq_true h, pyAssert_true]
      split_ifs <;> exact ⟨_, rfl⟩
    obtain ⟨b, hb⟩ := hb
    obtain ⟨bt', p, hbt, -, -, -, -, hty⟩ := mkBound_inv hb
    cases hbt
    obtain ⟨h1, h2, -⟩ := C09_bounds_absolute hb hl hu
    exact ⟨b, hb, hty, h, h1, h2⟩
  · intro h
    simp only [mkBound, boundVType, parseBType, boundPair, absNum_of hl, absNum_of hu, ok_bind,
      decide_eq_false (not_le.mpr h), pyAssert_false, error_bind]

theorem mkBound_pct_inv {lb ub : PyVal K} {values : List K} {b : Bound K} {l u : K}
    (hl : IsNumber lb l) (hu : IsNumber ub u)
    (h : mkBound (.str "percentile") lb ub (some values) none = .ok b) :
    b.qlb = l ∧ b.qub = u ∧ (0 ≤ l ∧ l ≤ 100) ∧ (0 ≤ u ∧ u ≤ 100) ∧
    npPercentile values l ≤ npPercentile values u ∧
    b.btype = .percentile ∧ b.lb = outLo values (npPercentile values l) ∧
    b.ub = outHi values (npPercentile values u) := by
  simp only [mkBound, boundVType, parseBType, boundPair, boundNum_of hl, boundNum_of hu, ok_bind,
    bind_ok_iff, pyAssert_ok_iff, decide_eq_true_eq] at h
  obtain ⟨p, ⟨_, hl', _, hu', hp⟩, _, hle, h⟩ := h
  cases hp
  unfold outLo outHi
  split_ifs at h with hi <;> (cases h; simp [hl', hu', hle, hi])

/-- **C09**, percentile bounds: accepted bounds `(l, u, 'percentile')` are the `l`-th and `u`-th percentile of
the data (rounded outwards for integer columns), and the requested ranks are kept for later assignments. -/
theorem C09_bounds_percentile_value {lb ub : PyVal K} {values : List K} {b : Bound K} {l u : K}
    (hne : values ≠ []) (hl : IsNumber lb l) (hu : IsNumber ub u)
    (h : mkBound (.str "percentile") lb ub (some values) none = .ok b) : PctBounds values l u b := by
  obtain ⟨h1, h2, h3, h4, h5, h6, h7, h8⟩ := mkBound_pct_inv hl hu h
  exact ⟨h6, h1, h2, h3, h4, _, _, isPercentile_np hne h3.1 h3.2, isPercentile_np hne h4.1 h4.2, h5, h7, h8⟩

/-- **C09**, types: the type of accepted bounds is what was asked for, and there are only two, each with a short name. -/
theorem C09_bound_types {bt lb ub : PyVal K} {values : Option (List K)} {vt : Option VType} {b : Bound K} (h : mkBound bt lb ub values vt = .ok b) :
    ((bt = .str "absolute" ∨ bt = .str "a") ∧ b.btype = .absolute) ∨ ((bt = .str "percentile" ∨ bt = .str "p") ∧ b.btype = .percentile) := by
  simp only [mkBound, bind_ok_iff] at h
  obtain ⟨t, -, bt', hbt, p, -, -, -, h⟩ := h
  have e : b.btype = bt' := by
    by_cases ht : t = VType.int
    · rw [if_pos ht] at h; cases h; rfl
    · rw [if_neg ht] at h; cases h; rfl
  rw [e]
  unfold parseBType at hbt
  split at hbt <;> cases hbt
  · exact Or.inl ⟨Or.inr rfl, rfl⟩
  · exact Or.inr ⟨Or.inr rfl, rfl⟩
  · exact Or.inl ⟨Or.inl rfl, rfl⟩
  · exact Or.inr ⟨Or.inl rfl, rfl⟩

/-! ## C62 -/

/-- **C62**, `step_direction`: any number is accepted, its sign is stored, nothing else changes. -/
theorem C62_step_direction (e : Elem K) {v : PyVal K} {d : K} (hv : IsNumber v d) :
    ∃ e', e.setAttr "step_direction" v = .ok e' ∧
      (0 < d → e'.stepDir = 1) ∧ (d < 0 → e'.stepDir = -1) ∧ (d = 0 → e'.stepDir = 0) ∧
      { e' with stepDir := e.stepDir } = e := by
  refine ⟨{ e with stepDir := sgn d }, ?_, sgn_pos, sgn_neg, ?_, rfl⟩
  · rcases hv with rfl | ⟨i, rfl, rfl⟩ <;> rfl
  · rintro rfl; exact sgn_zero

/-- **C62**, `flip_direction`: any number is accepted, its sign is stored, nothing else changes. -/
theorem C62_flip_direction (e : Elem K) {v : PyVal K} {d : K} (hv : IsNumber v d) :
    ∃ e', e.setAttr "flip_direction" v = .ok e' ∧
      (0 < d → e'.flip = some 1) ∧ (d < 0 → e'.flip = some (-1)) ∧ (d = 0 → e'.flip = some 0) ∧
      { e' with flip := e.flip } = e := by
  refine ⟨{ e with flip := some (sgn d) }, ?_, fun h => by rw [← sgn_pos h], fun h => by rw [← sgn_neg h],
    ?_, rfl⟩
  · rcases hv with rfl | ⟨i, rfl, rfl⟩ <;> rfl
  · rintro rfl; simp

/-- A flag given as a number: `True`, `1`, `1.0` or `False`, `0`, `0.0`. -/
def IsFlag : PyVal K → Bool → Prop
  | .bool b, c => b = c
  | .int i, c => i = if c then 1 else 0
  | .flt x, c => x = if c then 1 else 0
  | _, _ => False

/-- What an accepted assignment to `actionable` stores: a flag; or an array with one flag; a list or tuple with one flag stores `True`,
also for `[False]` (a nonempty list is true). -/
def StoresFlag : PyVal K → Bool → Prop
  | .list l, c => c = true ∧ ∃ v b, l = [v] ∧ IsFlag v b
  | .tuple l, c => c = true ∧ ∃ v b, l = [v] ∧ IsFlag v b
  | .arr l, c => ∃ v, l = [v] ∧ IsFlag v c
  | v, c => IsFlag v c

theorem isBoolLike_iff {v : PyVal K} : isBoolLike v = true ↔ ∃ b, IsFlag v b := by
  cases v <;> simp [isBoolLike, IsFlag, or_comm]

/-- **C62**, `actionable`, exactly which values are accepted and what they mean. -/
theorem C62_actionable_exact (e e' : Elem K) (v : PyVal K) :
    e.setAttr "actionable" v = .ok e' ↔ ∃ c, StoresFlag v c ∧ e' = { e with actionable := c } := by
  have hset : e.setAttr "actionable" v = (do let a ← parseActionable v; .ok { e with actionable := a }) := rfl
  rw [hset]
  have hp : ∀ a, parseActionable v = .ok a ↔ StoresFlag v a := by
    intro a
    have hb : ∀ w : PyVal K, (isBoolLike w = true ∧ truthy w = a) ↔ IsFlag w a := by
      intro w
      cases w <;> cases a <;> simp [isBoolLike, truthy, IsFlag] <;>
        first | (intro h; simp [h]) | (exact ⟨fun h => by tauto, fun h => by simp [h]⟩)
    have hd : ∀ w : PyVal K, isBoolLike w = true ↔ ∃ b, IsFlag w b := fun w => isBoolLike_iff
    unfold parseActionable
    simp only [bind_ok_iff, Except.ok.injEq]
    cases v with
    | list l =>
      match l with
      | [] => simp [isinBool, StoresFlag]
      | [w] =>
        simp only [isinBool, pyAssert_ok_iff, truthy, StoresFlag, hd]
        simp [eq_comm, and_comm]
      | _ :: _ :: _ => simp [isinBool, StoresFlag]
    | tuple l =>
      match l with
      | [] => simp [isinBool, StoresFlag]
      | [w] =>
        simp only [isinBool, pyAssert_ok_iff, truthy, StoresFlag, hd]
        simp [eq_comm, and_comm]
      | _ :: _ :: _ => simp [isinBool, StoresFlag]
    | arr l =>
      match l with
      | [] => simp [isinBool, StoresFlag]
      | [w] =>
        have ht : isBoolLike w = true → truthy (.arr [w]) = truthy w := by
          cases w <;> simp [isBoolLike, truthy]
        simp only [isinBool, pyAssert_ok_iff, StoresFlag]
        constructor
        · rintro ⟨_, h1, h2⟩
          exact ⟨w, rfl, (hb w).mp ⟨h1, by rw [← ht h1]; exact h2⟩⟩
        · rintro ⟨w', h1, h2⟩
          cases h1
          obtain ⟨h3, h4⟩ := (hb w).mpr h2
          exact ⟨(), h3, by rw [ht h3]; exact h4⟩
      | _ :: _ :: _ => simp [isinBool, StoresFlag]
    | none => simp [isinBool, StoresFlag, isBoolLike, IsFlag]
    | bool b => simpa [isinBool, StoresFlag, pyAssert_ok_iff] using hb (.bool b)
    | int i => simpa [isinBool, StoresFlag, pyAssert_ok_iff] using hb (.int i)
    | flt x => simpa [isinBool, StoresFlag, pyAssert_ok_iff] using hb (.flt x)
    | str s => simp [isinBool, StoresFlag, isBoolLike, IsFlag]
    | ty t => simp [isinBool, StoresFlag, isBoolLike, IsFlag]
  constructor
  · intro h
    obtain ⟨a, h1, h2⟩ := bind_ok_iff.mp h
    exact ⟨a, (hp a).mp h1, (Except.ok.inj h2).symm⟩
  · rintro ⟨c, h1, rfl⟩
    rw [(hp c).mpr h1]; rfl

/-- A one-element list: `A[n].actionable = [False]` makes the feature actionable. -/
theorem C62_actionable_refuted (e : Elem K) : e.setAttr "actionable" (.list [.bool false]) = .ok { e with actionable := true } := rfl

/-- **C62**, `actionable`: `True` and `False` are accepted and stored, nothing else changes. -/
theorem C62_actionable (e : Elem K) (b : Bool) :
    ∃ e', e.setAttr "actionable" (.bool b) = .ok e' ∧ e'.actionable = b ∧
      { e' with actionable := e.actionable } = e := ⟨{ e with actionable := b }, rfl, rfl, rfl⟩

/-- **C62**, `step_size`: a number is accepted exactly if it is positive and, for relative steps, at most 1;
it is stored, nothing else changes; otherwise `AssertionError`. -/
theorem C62_step_size (e : Elem K) {v : PyVal K} {s : K} (hv : IsNumber v s) :
    ((0 < s ∧ (e.stepType = .relative → s ≤ 1)) →
      ∃ e', e.setAttr "step_size" v = .ok e' ∧ e'.stepSize = s ∧ { e' with stepSize := e.stepSize } = e) ∧
    (¬ (0 < s ∧ (e.stepType = .relative → s ≤ 1)) → e.setAttr "step_size" v = .error .assertion) := by
  have hs : stepNum v = .ok s := by rcases hv with rfl | ⟨i, rfl, rfl⟩ <;> rfl
  have hset : e.setAttr "step_size" v = (do
      let s ← parseStepSize e.stepType v
      .ok { e with stepSize := s }) := rfl
  rw [hset]
  unfold parseStepSize
  rw [hs]
  constructor
  · rintro ⟨h1, h2⟩
    refine ⟨{ e with stepSize := s }, ?_, rfl, rfl⟩
    simp only [ok_bind, decide_eq_true h1, decide_eq_true h2, pyAssert_true]
  · intro h
    by_cases h1 : 0 < s
    · have h2 : ¬ (e.stepType = .relative → s ≤ 1) := fun h2 => h ⟨h1, h2⟩
      simp only [ok_bind, decide_eq_true h1, decide_eq_false h2, pyAssert_true, pyAssert_false, error_bind]
    · simp only [ok_bind, decide_eq_false h1, pyAssert_false, error_bind]

/-- **C62**, `step_type`: exactly the two documented strings are accepted; nothing else changes (the stored
`step_size` is not checked again). -/
theorem C62_step_type (e : Elem K) (s : String) :
    (s = "relative" → ∃ e', e.setAttr "step_type" (.str s) = .ok e' ∧ e'.stepType = .relative ∧
      { e' with stepType := e.stepType } = e) ∧
    (s = "absolute" → ∃ e', e.setAttr "step_type" (.str s) = .ok e' ∧ e'.stepType = .absolute ∧
      { e' with stepType := e.stepType } = e) ∧
    (s ≠ "relative" → s ≠ "absolute" → e.setAttr "step_type" (.str s) = .error .assertion) := by
  refine ⟨?_, ?_, ?_⟩
  · rintro rfl; exact ⟨{ e with stepType := .relative }, rfl, rfl, rfl⟩
  · rintro rfl; exact ⟨{ e with stepType := .absolute }, rfl, rfl, rfl⟩
  · intro h1 h2
    have hset : e.setAttr "step_type" (.str s) = (do
        let t ← parseStepType (K := K) (.str s)
        .ok { e with stepType := t }) := rfl
    rw [hset]
    unfold parseStepType
    split
    · rename_i h; cases h; exact absurd rfl h1
    · rename_i h; cases h; exact absurd rfl h2
    · rfl

/-- **C62**, `variable_type`: a type is stored, `None` means the type detected from the data. -/
theorem C62_variable_type (e : Elem K) :
    (∀ t : VType, ∃ e', e.setAttr "variable_type" (.ty t) = .ok e' ∧ e'.vtype = t ∧
      { e' with vtype := e.vtype } = e) ∧
    (∃ e', e.setAttr "variable_type" .none = .ok e' ∧ e'.vtype = determineType e.values ∧
      { e' with vtype := e.vtype } = e) :=
  ⟨fun t => ⟨{ e with vtype := t }, rfl, rfl, rfl⟩, { e with vtype := determineType e.values }, rfl, rfl, rfl⟩

/-- **C62**, `lb` of absolute bounds: a number is accepted exactly if it is at most the current `ub`; `lb`
becomes that number and `ub` stays (both rounded outwards for integer columns), nothing else changes. -/
theorem C62_lb_absolute (e : Elem K) (ht : e.bounds.btype = .absolute) {v : PyVal K} {l : K}
    (hv : IsNumber v l) :
    (l ≤ e.bounds.ub → ∃ e', e.setAttr "lb" v = .ok e' ∧ AbsBounds e.values l e.bounds.ub e'.bounds ∧
      { e' with bounds := e.bounds } = e) ∧
    (e.bounds.ub < l → e.setAttr "lb" v = .error .assertion) := by
  have hset : e.setAttr "lb" v = (do
      let b ← mkBound (.str "absolute") v (.flt e.bounds.ub) (some e.values) none
      .ok { e with bounds := b }) := by
    show e.setLb v = _
    unfold Elem.setLb; rw [ht]
  have h := mkBound_abs (values := e.values) hv (Or.inl rfl : IsNumber (.flt e.bounds.ub) e.bounds.ub)
  rw [hset]
  refine ⟨fun hle => ?_, fun hlt => ?_⟩
  · obtain ⟨b, hb, hs⟩ := h.1 hle
    rw [hb]; exact ⟨_, rfl, hs, rfl⟩
  · rw [h.2 hlt]; rfl

/-- **C62**, `ub` of absolute bounds. -/
theorem C62_ub_absolute (e : Elem K) (ht : e.bounds.btype = .absolute) {v : PyVal K} {u : K}
    (hv : IsNumber v u) :
    (e.bounds.lb ≤ u → ∃ e', e.setAttr "ub" v = .ok e' ∧ AbsBounds e.values e.bounds.lb u e'.bounds ∧
      { e' with bounds := e.bounds } = e) ∧
    (u < e.bounds.lb → e.setAttr "ub" v = .error .assertion) := by
  have hset : e.setAttr "ub" v = (do
      let b ← mkBound (.str "absolute") (.flt e.bounds.lb) v (some e.values) none
      .ok { e with bounds := b }) := by
    show e.setUb v = _
    unfold Elem.setUb; rw [ht]
  have h := mkBound_abs (values := e.values) (Or.inl rfl : IsNumber (.flt e.bounds.lb) e.bounds.lb) hv
  rw [hset]
  refine ⟨fun hle => ?_, fun hlt => ?_⟩
  · obtain ⟨b, hb, hs⟩ := h.1 hle
    rw [hb]; exact ⟨_, rfl, hs, rfl⟩
  · rw [h.2 hlt]; rfl

/-- Percentile ranks kept by a feature with percentile bounds are ranks, its data is not empty. -/
theorem Elem.Reachable.ranks {ext : Ext K} {e : Elem K} (h : e.Reachable ext) :
    e.values ≠ [] ∧ (e.bounds.btype = .percentile → 0 ≤ e.bounds.qlb ∧ e.bounds.qlb ≤ 100 ∧
      0 ≤ e.bounds.qub ∧ e.bounds.qub ≤ 100) := by
  have key : ∀ {bt lb ub : PyVal K} {values : List K} {b : Bound K},
      mkBound bt lb ub (some values) none = .ok b → b.btype = .percentile →
      0 ≤ b.qlb ∧ b.qlb ≤ 100 ∧ 0 ≤ b.qub ∧ b.qub ≤ 100 := by
    intro bt lb ub values b h hb
    simp only [mkBound, boundVType, ok_bind, bind_ok_iff, pyAssert_ok_iff, decide_eq_true_eq] at h
    obtain ⟨bt', -, p, hp, _, -, h⟩ := h
    have : bt' = .percentile := by
      split_ifs at h <;> (cases h; exact hb)
    subst this
    simp only [boundPair, bind_ok_iff, pyAssert_ok_iff, decide_eq_true_eq] at hp
    obtain ⟨l, -, u, -, _, hl, _, hu, hp⟩ := hp
    cases hp
    split_ifs at h <;> (cases h; exact ⟨hl.1, hl.2, hu.1, hu.2⟩)
  have keyP : ∀ {values : List K} {v : PyVal K} {b : Bound K}, parseBounds values v = .ok b →
      b.btype = .percentile → 0 ≤ b.qlb ∧ b.qlb ≤ 100 ∧ 0 ≤ b.qub ∧ b.qub ≤ 100 := by
    intro values v b h hb
    unfold parseBounds at h
    split at h
    all_goals first | exact key h hb | cases h
  induction h with
  | @mk name values bounds vt act st sd ss e h =>
    unfold mkElem at h
    simp only [bind_ok_iff, pyAssert_ok_iff, decide_eq_true_eq] at h
    obtain ⟨_, -, _, hl, b, hb, st', -, s, hs, g, hg, _, -, h⟩ := h
    cases h
    exact ⟨List.length_pos_iff.mp hl, keyP hb⟩
  | @set e e' attr v hr h ih =>
    refine ⟨by rw [(setAttr_grid h).2.2.1]; exact ih.1, ?_⟩
    unfold Elem.setAttr Elem.setLb Elem.setUb at h
    split at h
    all_goals try split at h
    all_goals first
      | (obtain ⟨a, ha, h⟩ := bind_ok_iff.mp h; cases h
         first | exact ih.2 | exact keyP ha | exact key ha)
      | (cases h; exact ih.2)
      | cases h
  | update hr h ih =>
    unfold Elem.updateGrid at h
    obtain ⟨g, -, h⟩ := bind_ok_iff.mp h
    cases h; exact ih
  | touch hr ih =>
    obtain ⟨c, hc⟩ := fillCache_eq ext _
    rw [hc]; exact ih
  | interp hr h ih =>
    obtain ⟨c, rfl⟩ := updateInterpolator_eq h
    exact ih

theorem mkBound_pct_ok {lb ub : PyVal K} {values : List K} {l u : K} (hne : values ≠ [])
    (hl : IsNumber lb l) (hu : IsNumber ub u) (h0 : 0 ≤ l) (hlu : l ≤ u) (h1 : u ≤ 100) :
    ∃ b, mkBound (.str "percentile") lb ub (some values) none = .ok b ∧ PctBounds values l u b := by
  have hb : ∃ b, mkBound (.str "percentile") lb ub (some values) none = .ok b := by
    simp only [mkBound, boundVType, parseBType, boundPair, boundNum_of hl, boundNum_of hu, ok_bind,
      decide_eq_true (⟨h0, hlu.trans h1⟩ : 0 ≤ l ∧ l ≤ 100),
      decide_eq_true (⟨h0.trans hlu, h1⟩ : 0 ≤ u ∧ u ≤ 100),
      decide_eq_true (npPercentile_mono hne h0 hlu h1), pyAssert_true]
    split_ifs <;> exact ⟨_, rfl⟩
  obtain ⟨b, hb⟩ := hb
  exact ⟨b, hb, C09_bounds_percentile_value hne hl hu hb⟩

/-- **C62**, `lb` of percentile bounds: the assigned number is a percentile rank; any rank up to the current
upper rank is accepted; the upper rank stays, nothing but the bounds changes. -/
theorem C62_lb_percentile {ext : Ext K} {e : Elem K} (hr : e.Reachable ext)
    (ht : e.bounds.btype = .percentile) {v : PyVal K} {l : K} (hv : IsNumber v l) :
    (0 ≤ l → l ≤ e.bounds.qub → ∃ e', e.setAttr "lb" v = .ok e') ∧
    (∀ e', e.setAttr "lb" v = .ok e' → PctBounds e.values l e.bounds.qub e'.bounds ∧
      { e' with bounds := e.bounds } = e) := by
  obtain ⟨hne, hq⟩ := hr.ranks
  have hset : e.setAttr "lb" v = (do
      let b ← mkBound (.str "percentile") v (.flt e.bounds.qub) (some e.values) none
      .ok { e with bounds := b }) := by
    show e.setLb v = _
    unfold Elem.setLb; rw [ht]
  have hu : IsNumber (.flt e.bounds.qub) e.bounds.qub := Or.inl rfl
  rw [hset]
  refine ⟨fun h0 hle => ?_, fun e' he => ?_⟩
  · obtain ⟨b, hb, -⟩ := mkBound_pct_ok hne hv hu h0 hle (hq ht).2.2.2
    rw [hb]; exact ⟨_, rfl⟩
  · obtain ⟨b, hb, he⟩ := bind_ok_iff.mp he
    cases he
    exact ⟨C09_bounds_percentile_value hne hv hu hb, rfl⟩

/-- **C62**, `ub` of percentile bounds. -/
theorem C62_ub_percentile {ext : Ext K} {e : Elem K} (hr : e.Reachable ext)
    (ht : e.bounds.btype = .percentile) {v : PyVal K} {u : K} (hv : IsNumber v u) :
    (e.bounds.qlb ≤ u → u ≤ 100 → ∃ e', e.setAttr "ub" v = .ok e') ∧
    (∀ e', e.setAttr "ub" v = .ok e' → PctBounds e.values e.bounds.qlb u e'.bounds ∧
      { e' with bounds := e.bounds } = e) := by
  obtain ⟨hne, hq⟩ := hr.ranks
  have hset : e.setAttr "ub" v = (do
      let b ← mkBound (.str "percentile") (.flt e.bounds.qlb) v (some e.values) none
      .ok { e with bounds := b }) := by
    show e.setUb v = _
    unfold Elem.setUb; rw [ht]
  have hl : IsNumber (.flt e.bounds.qlb) e.bounds.qlb := Or.inl rfl
  rw [hset]
  refine ⟨fun h0 hle => ?_, fun e' he => ?_⟩
  · obtain ⟨b, hb, -⟩ := mkBound_pct_ok hne hl hv (hq ht).1 h0 hle
    rw [hb]; exact ⟨_, rfl⟩
  · obtain ⟨b, hb, he⟩ := bind_ok_iff.mp he
    cases he
    exact ⟨C09_bounds_percentile_value hne hl hv hb, rfl⟩

/-- **C62**, `bounds`: `(l, u)` or `(l, u, 'absolute')` sets absolute bounds, `(l, u, 'percentile')`
percentile bounds (`'a'` and `'p'` are short for them), `None` the range of the data; nothing but the bounds changes. -/
theorem C62_bounds {ext : Ext K} {e : Elem K} (hr : e.Reachable ext) {lb ub : PyVal K} {l u : K}
    (hl : IsNumber lb l) (hu : IsNumber ub u) :
    (l ≤ u → ∀ v ∈ [PyVal.list [lb, ub], .tuple [lb, ub], .list [lb, ub, .str "absolute"],
        .tuple [lb, ub, .str "absolute"], .list [lb, ub, .str "a"], .tuple [lb, ub, .str "a"]],
      ∃ e', e.setAttr "bounds" v = .ok e' ∧ AbsBounds e.values l u e'.bounds ∧
        { e' with bounds := e.bounds } = e) ∧
    (0 ≤ l → l ≤ u → u ≤ 100 → ∀ v ∈ [PyVal.list [lb, ub, .str "percentile"],
        .tuple [lb, ub, .str "percentile"], .list [lb, ub, .str "p"], .tuple [lb, ub, .str "p"]],
      ∃ e', e.setAttr "bounds" v = .ok e' ∧ PctBounds e.values l u e'.bounds ∧
        { e' with bounds := e.bounds } = e) ∧
    (∃ e' m M, e.setAttr "bounds" .none = .ok e' ∧ IsLeast' e.values m ∧ IsGreatest' e.values M ∧
      e'.bounds.lb = outLo e.values m ∧ e'.bounds.ub = outHi e.values M ∧
      { e' with bounds := e.bounds } = e) := by
  obtain ⟨hne, -⟩ := hr.ranks
  have hset : ∀ v, e.setAttr "bounds" v = (do
      let b ← parseBounds e.values v
      .ok { e with bounds := b }) := fun _ => rfl
  refine ⟨fun hle v hv => ?_, fun h0 hle h1 v hv => ?_, ?_⟩
  · obtain ⟨b, hb, hs⟩ := (mkBound_abs (values := e.values) hl hu).1 hle
    refine ⟨{ e with bounds := b }, ?_, hs, rfl⟩
    rw [hset]
    simp only [List.mem_cons, List.not_mem_nil, or_false] at hv
    have ha : mkBound (.str "a") lb ub (some e.values) none = mkBound (.str "absolute") lb ub (some e.values) none := rfl
    rcases hv with rfl | rfl | rfl | rfl | rfl | rfl <;> (simp only [parseBounds, ha]; rw [hb]; rfl)
  · obtain ⟨b, hb, hs⟩ := mkBound_pct_ok hne hl hu h0 hle h1
    refine ⟨{ e with bounds := b }, ?_, hs, rfl⟩
    rw [hset]
    simp only [List.mem_cons, List.not_mem_nil, or_false] at hv
    have hp : mkBound (.str "p") lb ub (some e.values) none = mkBound (.str "percentile") lb ub (some e.values) none := rfl
    rcases hv with rfl | rfl | rfl | rfl <;> (simp only [parseBounds, hp]; rw [hb]; rfl)
  · have hb : ∃ b, mkBound (.str "absolute") .none .none (some e.values) none = .ok b := by
      have hle : npMin e.values ≤ npMax e.values := npMin_le (npMax_mem hne)
      simp only [mkBound, boundVType, parseBType, boundPair, absNum, ok_bind, decide_eq_true hle,
        pyAssert_true]
      split_ifs <;> exact ⟨_, rfl⟩
    obtain ⟨b, hb⟩ := hb
    obtain ⟨m, hm, hlo⟩ := (C09_bounds_default (ub := .none) (lb := .none) hne).1 hb
    obtain ⟨M, hM, hhi⟩ := (C09_bounds_default (ub := .none) (lb := .none) hne).2 hb
    refine ⟨{ e with bounds := b }, m, M, ?_, hm, hM, hlo, hhi, rfl⟩
    rw [hset]
    simp only [parseBounds]; rw [hb]; rfl

/-- **C62**, protected attributes: `name`, `values`, `compatible`, `size`, `aligned`, `grid` and `interpolator`
cannot be assigned, nor can `bound_type`. -/
theorem C62_readonly (e : Elem K) (v : PyVal K) :
    (∀ n ∈ ["name", "values", "compatible", "size", "aligned", "grid", "interpolator"],
      e.setAttr n v = .error .attribute) ∧ e.setAttr "bound_type" v = .error .type := by
  refine ⟨fun n hn => ?_, rfl⟩
  simp only [List.mem_cons, List.not_mem_nil, or_false] at hn
  rcases hn with rfl | rfl | rfl | rfl | rfl | rfl | rfl <;> rfl

/-- Non-vacuity: a feature with percentile bounds and a sequence of assignments. -/
example : ∃ e : Elem ℚ,
    mkElem "a" [0, 1/2, 3, 5] (.tuple [.int 0, .int 50, .str "percentile"]) none true (.str "relative") 0
      (.flt (1/4)) = .ok e ∧ e.bounds.btype = .percentile ∧ e.bounds.ub = 7/4 ∧
    ∃ e', e.setAttr "ub" (.int 100) = .ok e' ∧ e'.bounds.ub = 5 ∧ e'.bounds.lb = 0 := by decide +kernel

end Recourse
