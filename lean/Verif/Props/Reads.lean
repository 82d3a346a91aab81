import Verif.Model.Reads
import Verif.Props.Atomic
import Verif.Props.Setters

/-!
# Properties C63, C64: reading attributes, writing back what was read, tables
-/

set_option linter.unusedSectionVars false

namespace Recourse

variable {K : Type} [Field K] [LinearOrder K] [IsStrictOrderedRing K] [FloorRing K]

/-- The attributes of features that can be read. -/
def readable : List String :=
  ["name", "values", "actionable", "compatible", "variable_type", "size", "bound_type", "lb", "ub", "aligned",
   "flip_direction", "step_type", "step_direction", "step_size", "grid"]

theorem getAttr_readable {n : String} (hn : n ∈ readable) (e : Elem K) : ∃ v, e.getAttr n = .ok v := by
  unfold readable at hn
  simp only [List.mem_cons, List.not_mem_nil, or_false] at hn
  rcases hn with rfl | rfl | rfl | rfl | rfl | rfl | rfl | rfl | rfl | rfl | rfl | rfl | rfl | rfl | rfl <;>
    exact ⟨_, rfl⟩

theorem readable_public {n : String} (hn : n ∈ readable) :
    ¬ (n.toList.head? = some '_' ∨ hasElemAttr n = false) := by
  revert n; unfold readable; decide

theorem mapM_all {α β : Type} {f : α → Except Err β} {l : List α} (h : ∀ a ∈ l, ∃ b, f a = .ok b) :
    ∃ r, l.mapM f = .ok r ∧ r.length = l.length ∧
      ∀ (k : ℕ) (a : α), l[k]? = some a → ∃ b, r[k]? = some b ∧ f a = .ok b := by
  induction l with
  | nil => exact ⟨[], rfl, rfl, fun k a h => by simp at h⟩
  | cons a l ih =>
    obtain ⟨b, hb⟩ := h a (by simp)
    obtain ⟨r, hr, hl, hk⟩ := ih fun a ha => h a (List.mem_cons_of_mem _ ha)
    refine ⟨b :: r, by rw [List.mapM_cons, hb, ok_bind, hr]; rfl, by simp [hl], ?_⟩
    intro k a' hka
    cases k with
    | zero => simp at hka; subst hka; exact ⟨b, rfl, hb⟩
    | succ k => simpa using hk k a' (by simpa using hka)

/-! ## C63: reads -/

theorem elem?_at {ext : Ext K} {A : ActionSet K} (hr : A.Reachable ext) {p : ℕ} {n : String}
    (hn : A.names[p]? = some n) : ∃ e, A.elems[p]? = some e ∧ A.elem? n = some e := by
  obtain ⟨hp, hpe⟩ := List.getElem?_eq_some_iff.mp hn
  have hi : A.names.idxOf n = p := by rw [← hpe]; exact hr.wf.distinct.idxOf_getElem p hp
  have hlt : p < A.elems.length := by rw [hr.wf.length]; exact hp
  refine ⟨A.elems[p], List.getElem?_eq_getElem hlt, ?_⟩
  unfold ActionSet.elem?
  rw [if_pos (hpe ▸ List.getElem_mem _), hi, List.getElem?_eq_getElem hlt]

/-- **C63**, reads: `A.attr` is the list with one entry per feature, in column order, of what `A[name].attr`
returns. -/
theorem C63_reads {ext : Ext K} {A : ActionSet K} (hr : A.Reachable ext) {attr : String} (ha : attr ∈ readable) :
    ∃ l, A.getAttr attr = .ok (.list l) ∧ l.length = A.names.length ∧
      ∀ (j : ℕ) (n : String), A.names[j]? = some n →
        ∃ v, l[j]? = some v ∧ A.getElemAttr n attr = .ok v := by
  obtain ⟨l, hl, hlen, hk⟩ := mapM_all (f := fun e : Elem K => e.getAttr attr) (l := A.elems)
    (fun e _ => getAttr_readable ha e)
  refine ⟨l, ?_, by rw [hlen, hr.wf.length], ?_⟩
  · unfold ActionSet.getAttr
    rw [if_neg (readable_public ha), hl]; rfl
  · intro j n hn
    obtain ⟨e, he, hel⟩ := elem?_at hr hn
    obtain ⟨v, hv, hg⟩ := hk j e he
    refine ⟨v, hv, ?_⟩
    unfold ActionSet.getElemAttr
    rw [hel]; exact hg

/-- **C63**, names that are not features: reading any attribute raises `KeyError`. -/
theorem C63_unknown {A : ActionSet K} {n : String} (hn : n ∉ A.names) (attr : String) :
    A.getElemAttr n attr = .error .key := by
  unfold ActionSet.getElemAttr ActionSet.elem?
  rw [if_neg hn]

/-- **C63**, attributes that features do not have: reading one that is neither in `readable` nor has been assigned to the feature by the user raises
`AttributeError`, for the feature and for the whole set (if it was not assigned to the set either). -/
theorem C63_missing {ext : Ext K} {A : ActionSet K} (hr : A.Reachable ext) {attr : String} (ha : attr ∉ readable) :
    (∀ n e, A.elem? n = some e → (∀ p ∈ e.extra, p.1 ≠ attr) → A.getElemAttr n attr = .error .attribute) ∧
    (attr ∉ ["y_desired", "alignment_known", "check_flag", "print_flag"] → (∀ p ∈ A.extra, p.1 ≠ attr) →
      (∀ e ∈ A.elems, ∀ p ∈ e.extra, p.1 ≠ attr) → A.names ≠ [] → A.getAttr attr = .error .attribute) := by
  have look : ∀ l : List (String × PyVal K), (∀ p ∈ l, p.1 ≠ attr) → l.lookup attr = none := by
    intro l hl
    induction l with
    | nil => rfl
    | cons p l ih =>
      obtain ⟨k, v⟩ := p
      have hk : k ≠ attr := hl (k, v) (by simp)
      rw [List.lookup_cons, show (attr == k) = false from beq_eq_false_iff_ne.mpr (Ne.symm hk)]
      exact ih fun p hp => hl p (List.mem_cons_of_mem _ hp)
  have hel : ∀ e : Elem K, (∀ p ∈ e.extra, p.1 ≠ attr) → e.getAttr attr = .error .attribute := by
    intro e he
    unfold readable at ha
    simp only [List.mem_cons, List.not_mem_nil, or_false, not_or] at ha
    unfold Elem.getAttr
    simp only [ha, if_false, look _ he]
  constructor
  · intro n e he hx
    unfold ActionSet.getElemAttr
    rw [he]
    exact hel e hx
  · intro h1 h2 h3 h4
    simp only [List.mem_cons, List.not_mem_nil, or_false, not_or] at h1
    unfold ActionSet.getAttr
    by_cases hc : attr.toList.head? = some '_' ∨ hasElemAttr attr = false
    · rw [if_pos hc, if_neg h1.1, if_neg h1.2.1, look _ h2]
      simp only [h1.2.2.1, h1.2.2.2, or_self, if_false]
    · rw [if_neg hc]
      have hlen := hr.wf.length
      cases hes : A.elems with
      | nil =>
        rw [hes] at hlen
        exact absurd (List.eq_nil_of_length_eq_zero hlen.symm) h4
      | cons e es =>
        rw [List.mapM_cons, hel e (h3 e (by rw [hes]; simp))]
        rfl

/-- Non-vacuity of `C63_missing`: a new set does not have the attribute `mutable` of the README. -/
example : ∃ A : ActionSet ℚ,
    mkActionSet exX2 ["a", "b"] 1 [] (.tuple [.int 0, .int 5]) (.str "relative") = .ok A ∧
    "mutable" ∉ readable ∧ (∀ p ∈ A.extra, p.1 ≠ "mutable") ∧ (∀ e ∈ A.elems, ∀ p ∈ e.extra, p.1 ≠ "mutable") ∧ A.names ≠ [] := by
  decide +kernel

/-- **C63**, reads of slices that select distinct features: `A[idx].attr` lists the attribute of the selected
features in the order of the selection. -/
theorem C63_slice_reads {ext : Ext K} {A : ActionSet K} (hr : A.Reachable ext) {attr : String}
    (ha : attr ∈ readable) {idx : PyIdx K} {pos : List ℕ} (hg : A.getItem idx = .ok pos) (hnd : pos.Nodup)
    (hlt : ∀ p ∈ pos, p < A.names.length) :
    ∃ l, A.getSliceAttr idx attr = .ok (.list l) ∧ l.length = pos.length ∧
      ∀ (k p : ℕ) (n : String), pos[k]? = some p → A.names[p]? = some n →
        ∃ v, l[k]? = some v ∧ A.getElemAttr n attr = .ok v := by
  have hent : sliceEntries pos = pos.zipIdx := sliceEntries_nodup hnd
  obtain ⟨l, hl, hlen, hk⟩ := mapM_all (l := sliceEntries pos)
    (f := fun (p : ℕ × ℕ) => A.readAt attr p.1) (by
        intro p hp
        rw [hent] at hp
        have hm : p.1 ∈ pos := by
          have := List.mem_map_of_mem (f := Prod.fst) hp
          simpa using this
        have : p.1 < A.elems.length := by rw [hr.wf.length]; exact hlt _ hm
        unfold ActionSet.readAt
        rw [List.getElem?_eq_getElem this]
        exact getAttr_readable ha _)
  refine ⟨l, ?_, by rw [hlen, hent]; simp, ?_⟩
  · unfold ActionSet.getSliceAttr
    rw [hg, ok_bind, hl]; rfl
  · intro k p n hkp hn
    obtain ⟨e, he, hel⟩ := elem?_at hr hn
    obtain ⟨v, hv, hgv⟩ := hk k (p, k) (by rw [hent]; simp [List.getElem?_zipIdx, hkp])
    refine ⟨v, hv, ?_⟩
    unfold ActionSet.getElemAttr
    rw [hel]
    simpa [ActionSet.readAt, he] using hgv

/-! ## C63: writing back -/

theorem Elem.Reachable.flip_cases {ext : Ext K} {e : Elem K} (h : e.Reachable ext) :
    ∀ f, e.flip = some f → f = 1 ∨ f = -1 ∨ f = 0 := by
  have hs : ∀ x : K, sgn x = 1 ∨ sgn x = -1 ∨ sgn x = 0 := fun x => by
    rcases sgn_cases x with h | h | h
    · exact Or.inl h.1
    · exact Or.inr (Or.inl h.1)
    · exact Or.inr (Or.inr h.1)
  induction h with
  | mk h =>
    intro f hf
    obtain ⟨-, -, -, -, -, -, -, -, hfl, -⟩ := mkElem_spec h
    rw [hfl] at hf; cases hf
  | @set e e' attr v hr h ih =>
    unfold Elem.setAttr Elem.setLb Elem.setUb at h
    split at h
    all_goals try split at h
    all_goals first
      | (obtain ⟨a, -, h⟩ := bind_ok_iff.mp h; cases h
         first
         | exact ih
         | (intro f hf; cases hf; exact hs _))
      | (cases h; exact ih)
      | cases h
  | update hr h ih =>
    unfold Elem.updateGrid at h
    obtain ⟨g, -, h⟩ := bind_ok_iff.mp h
    cases h; exact ih
  | touch hr ih =>
    obtain ⟨c, hc⟩ := fillCache_eq ext _
    rw [hc]; exact ih
  | interp hr h ih =>
    obtain ⟨c, rfl⟩ := updateInterpolator_eq h
    exact ih

/-- The bounds of a feature always come from the bound constructor applied to its data. -/
theorem Elem.Reachable.bounds_made {ext : Ext K} {e : Elem K} (h : e.Reachable ext) :
    ∃ bt lb ub, mkBound bt lb ub (some e.values) none = .ok e.bounds := by
  have keyP : ∀ {values : List K} {v : PyVal K} {b : Bound K}, parseBounds values v = .ok b →
      ∃ bt lb ub, mkBound bt lb ub (some values) none = .ok b := by
    intro values v b h
    unfold parseBounds at h
    split at h
    all_goals first | exact ⟨_, _, _, h⟩ | cases h
  induction h with
  | @mk name values bounds vt act st sd ss e h =>
    unfold mkElem at h
    simp only [bind_ok_iff, pyAssert_ok_iff, decide_eq_true_eq] at h
    obtain ⟨_, -, _, hl, b, hb, st', -, s, hs, g, hg, _, -, h⟩ := h
    cases h
    exact keyP hb
  | @set e e' attr v hr h ih =>
    unfold Elem.setAttr Elem.setLb Elem.setUb at h
    split at h
    all_goals try split at h
    all_goals first
      | (obtain ⟨a, ha, h⟩ := bind_ok_iff.mp h; cases h
         first | exact ih | exact keyP ha | exact ⟨_, _, _, ha⟩)
      | (cases h; exact ih)
      | cases h
  | update hr h ih =>
    unfold Elem.updateGrid at h
    obtain ⟨g, -, h⟩ := bind_ok_iff.mp h
    cases h; exact ih
  | touch hr ih =>
    obtain ⟨c, hc⟩ := fillCache_eq ext _
    rw [hc]; exact ih
  | interp hr h ih =>
    obtain ⟨c, rfl⟩ := updateInterpolator_eq h
    exact ih

/-- Rebuilding absolute bounds from their own ends gives the same bounds. -/
theorem mkBound_again {bt lb ub : PyVal K} {values : List K} {b : Bound K}
    (h : mkBound bt lb ub (some values) none = .ok b) (hb : b.btype = .absolute) :
    mkBound (.str "absolute") (.flt b.lb) (.flt b.ub) (some values) none = .ok b := by
  have hle := mkBound_le h
  simp only [mkBound, boundVType, ok_bind, bind_ok_iff, pyAssert_ok_iff, decide_eq_true_eq] at h
  obtain ⟨bt', -, p, hp, _, -, h⟩ := h
  have : bt' = .absolute := by split_ifs at h <;> (cases h; exact hb)
  subst this
  simp only [boundPair, bind_ok_iff] at hp
  obtain ⟨l, -, u, -, hp⟩ := hp
  cases hp
  have hle' : decide (b.lb ≤ b.ub) = true := decide_eq_true hle
  simp only [mkBound, boundVType, ok_bind, parseBType, boundPair, absNum, boundNum, hle', pyAssert_true]
  split_ifs at h ⊢ with hv
  · cases h
    simp
  · cases h; rfl

/-- When writing back an attribute is possible and harmless on one feature. -/
def WritesBack (attr : String) (e : Elem K) : Prop :=
  attr = "actionable" ∨ attr = "variable_type" ∨ attr = "step_type" ∨ attr = "step_direction" ∨
  (attr = "flip_direction" ∧ e.aligned = true) ∨
  (attr = "step_size" ∧ (e.stepType = .relative → e.stepSize ≤ 1)) ∨
  ((attr = "lb" ∨ attr = "ub") ∧ e.bounds.btype = .absolute)

theorem setAttr_getAttr {ext : Ext K} {e : Elem K} (hr : e.Reachable ext) {attr : String}
    (hw : WritesBack attr e) {v : PyVal K} (hv : e.getAttr attr = .ok v) : e.setAttr attr v = .ok e := by
  rcases hw with rfl | rfl | rfl | rfl | ⟨rfl, ha⟩ | ⟨rfl, hs⟩ | ⟨rfl | rfl, hb⟩
  · have : v = .bool e.actionable := (Except.ok.inj hv).symm
    subst this
    cases h : e.actionable <;> (show _ = Except.ok e; cases e; simp only at h; subst h; rfl)
  · have : v = .ty e.vtype := (Except.ok.inj hv).symm
    subst this; rfl
  · have : v = .str e.stepType.toStr := (Except.ok.inj hv).symm
    subst this
    cases h : e.stepType <;> (cases e; simp only at h; subst h; rfl)
  · have : v = .int e.stepDir := (Except.ok.inj hv).symm
    subst this
    have : sgn ((e.stepDir : ℤ) : K) = e.stepDir := by
      rw [sgn_intCast]
      rcases hr.stepDir_cases with h | h | h <;> rw [h] <;> rfl
    show Except.ok { e with stepDir := sgn ((e.stepDir : ℤ) : K) } = _
    rw [this]
  · unfold Elem.aligned at ha
    obtain ⟨f, hf⟩ := Option.isSome_iff_exists.mp ha
    have : v = .int f := by
      have : e.getAttr "flip_direction" = .ok (match e.flip with | some f => .int f | none => .none) := rfl
      rw [this, hf] at hv
      exact (Except.ok.inj hv).symm
    subst this
    have : sgn ((f : ℤ) : K) = f := by
      rw [sgn_intCast]
      rcases hr.flip_cases f hf with h | h | h <;> rw [h] <;> rfl
    show Except.ok { e with flip := some (sgn ((f : ℤ) : K)) } = _
    rw [this, ← hf]
  · have : v = .flt e.stepSize := (Except.ok.inj hv).symm
    subst this
    have h := (C62_step_size e (Or.inl rfl : IsNumber (.flt e.stepSize) e.stepSize)).1
    obtain ⟨e', h1, h2, h3⟩ := h ⟨hr.inv.1.2, hs⟩
    rw [← h2] at h3
    rw [h1, show e' = e from h3]
  · have : v = .flt e.bounds.lb := (Except.ok.inj hv).symm
    subst this
    obtain ⟨bt, lb, ub, hm⟩ := hr.bounds_made
    show e.setLb _ = _
    unfold Elem.setLb
    rw [hb]
    simp only
    rw [mkBound_again hm hb]; rfl
  · have : v = .flt e.bounds.ub := (Except.ok.inj hv).symm
    subst this
    obtain ⟨bt, lb, ub, hm⟩ := hr.bounds_made
    show e.setUb _ = _
    unfold Elem.setUb
    rw [hb]
    simp only
    rw [mkBound_again hm hb]; rfl

theorem assignLoop_same {attr : String} : ∀ {es : List (Elem K)} {vs : List (PyVal K)}, es.length = vs.length →
    (∀ (k : ℕ) (e : Elem K) (v : PyVal K), es[k]? = some e → vs[k]? = some v → e.setAttr attr v = .ok e) →
    assignLoop attr es vs = (es, .ok ())
  | [], [], _, _ => rfl
  | e :: es, v :: vs, hl, h => by
    have h0 := h 0 e v rfl rfl
    have ih := assignLoop_same (attr := attr) (es := es) (vs := vs) (by simpa using hl)
      (fun k e v he hv => h (k + 1) e v (by simpa using he) (by simpa using hv))
    unfold assignLoop
    rw [h0]
    simp only [ih]

/-- **C63**, writing back (partial): `A.attr = A.attr` changes nothing, for `actionable`, `variable_type`,
`step_type`, `step_direction`, for `flip_direction` of aligned sets, for `step_size` unless a size above 1 has
become relative, and for `lb` and `ub` of absolute bounds.  Missing: percentile bounds, the default, for which
it is false (`C63_bounds_refuted`). -/
theorem C63_write_back_partial {ext : Ext K} {A : ActionSet K} (hr : A.Reachable ext) {attr : String}
    (ha : attr ∈ readable) (hw : ∀ e ∈ A.elems, WritesBack attr e) {v : PyVal K} (hv : A.getAttr attr = .ok v) :
    A.setAttr attr v = (A, .ok ()) := by
  obtain ⟨l, hl, hlen, hk⟩ := C63_reads hr ha
  rw [hl] at hv; cases hv
  have hea : hasElemAttr attr = true := by
    have := readable_public ha
    rw [not_or] at this
    simpa using this.2
  have hloop : assignLoop attr A.elems l = (A.elems, .ok ()) := by
    apply assignLoop_same
    · rw [hlen, hr.wf.length]
    · intro k e u he hu
      have hn := hr.wf.elem_name he
      obtain ⟨w, hw1, hw2⟩ := hk k e.name hn
      rw [hu] at hw1; cases hw1
      obtain ⟨e', he', hel⟩ := elem?_at hr hn
      rw [he] at he'; cases he'
      unfold ActionSet.getElemAttr at hw2
      rw [hel] at hw2
      exact setAttr_getAttr (hr.wf.elems e (List.mem_of_getElem? he)) (hw e (List.mem_of_getElem? he)) hw2
  unfold ActionSet.setAttr
  rw [if_pos hea]
  have hex : expandValues A.names.length (.list l) = .ok l := by simp [expandValues, hlen]
  rw [hex]
  simp only [hloop]

/-- **C63** refuted for percentile bounds, the default: the value read from `lb` is a value of the feature, the
value assigned is a percentile rank.  With data `0, 10, 50, 100` and bounds `(50, 100, 'percentile')` the
lower bound is 30, and `A.lb = A.lb` moves it to the 30th percentile. -/
theorem C63_bounds_refuted : ∃ A : ActionSet ℚ,
    mkActionSet [[0], [10], [50], [100]] ["a"] 1 [] (.tuple [.int 50, .int 100, .str "percentile"])
      (.str "relative") = .ok A ∧
    ∃ v, A.getAttr "lb" = .ok v ∧ (A.setAttr "lb" v).2 = .ok () ∧
    A.elems.map (fun e => e.bounds.lb) = [30] ∧
    (A.setAttr "lb" v).1.elems.map (fun e => e.bounds.lb) ≠ [30] := by
  decide +kernel

/-- Non-vacuity of `C63_write_back_partial` and `C63_slice_reads`. -/
example : ∃ A : ActionSet ℚ,
    mkActionSet exX2 ["a", "b"] 1 [] (.tuple [.int 0, .int 5]) (.str "relative") = .ok A ∧
    (∃ v, A.getAttr "ub" = .ok v ∧ v.items.length = 2) ∧
    (A.elems.all fun e => decide (e.bounds.btype = .absolute)) = true ∧
    A.getItem (.list [.str "b", .str "a"]) = .ok [1, 0] := by
  decide +kernel

/-! ## C64: tables -/

/-- The row of `A.df` that describes a feature. -/
def RowOf (e : Elem K) (r : DfRow K) : Prop :=
  r.name = .str e.name ∧ r.variableType = .ty e.vtype ∧ r.lb = .flt e.bounds.lb ∧ r.ub = .flt e.bounds.ub ∧
  r.gridSize = .int e.grid.vals.length ∧ r.stepSize = .flt e.stepSize ∧ r.actionable = .bool e.actionable ∧
  r.stepDirection = .int e.stepDir ∧
  (∀ b, e.compatible = some b → r.compatible = .bool b) ∧
  (∀ f, e.flip = some f → r.flipDirection = .int f)

theorem getAttr_list {n : String} (hn : n ∈ readable) (A : ActionSet K) :
    ∃ l, A.getAttr n = .ok (.list l) ∧ l.length = A.elems.length ∧
      ∀ (k : ℕ) (e : Elem K), A.elems[k]? = some e → ∃ v, l[k]? = some v ∧ e.getAttr n = .ok v := by
  obtain ⟨l, hl, hlen, hk⟩ := mapM_all (f := fun e : Elem K => e.getAttr n) (l := A.elems)
    (fun e _ => getAttr_readable hn e)
  refine ⟨l, ?_, hlen, hk⟩
  unfold ActionSet.getAttr
  rw [if_neg (readable_public hn), hl]; rfl

/-- **C64**, `df`: one row per feature, in column order, with the feature's present attributes. -/
theorem C64_df {ext : Ext K} {A : ActionSet K} (_hr : A.Reachable ext) :
    ∃ rows, A.df = .ok rows ∧ rows.length = A.elems.length ∧
      ∀ (j : ℕ) (e : Elem K), A.elems[j]? = some e → ∃ r, rows[j]? = some r ∧ RowOf e r := by
  obtain ⟨l1, g1, n1, k1⟩ := getAttr_list (n := "name") (by decide) A
  obtain ⟨l2, g2, n2, k2⟩ := getAttr_list (n := "variable_type") (by decide) A
  obtain ⟨l3, g3, n3, k3⟩ := getAttr_list (n := "lb") (by decide) A
  obtain ⟨l4, g4, n4, k4⟩ := getAttr_list (n := "ub") (by decide) A
  obtain ⟨l5, g5, n5, k5⟩ := getAttr_list (n := "size") (by decide) A
  obtain ⟨l6, g6, n6, k6⟩ := getAttr_list (n := "step_size") (by decide) A
  obtain ⟨l7, g7, n7, k7⟩ := getAttr_list (n := "actionable") (by decide) A
  obtain ⟨l8, g8, n8, k8⟩ := getAttr_list (n := "compatible") (by decide) A
  obtain ⟨l9, g9, n9, k9⟩ := getAttr_list (n := "step_direction") (by decide) A
  obtain ⟨l0, g0, n0, k0⟩ := getAttr_list (n := "flip_direction") (by decide) A
  unfold ActionSet.df
  rw [g1, g2, g3, g4, g5, g6, g7, g8, g9, g0]
  simp only [ok_bind, PyVal.items]
  refine ⟨_, rfl, by simp [n1], ?_⟩
  intro j e he
  have hj : j < l1.length := by rw [n1]; exact (List.getElem?_eq_some_iff.mp he).1
  refine ⟨_, by rw [List.getElem?_map, List.getElem?_range hj]; rfl, ?_⟩
  have key : ∀ {n : String} {l : List (PyVal K)} {w : PyVal K},
      (∀ (k : ℕ) (e : Elem K), A.elems[k]? = some e → ∃ v, l[k]? = some v ∧ e.getAttr n = .ok v) →
      e.getAttr n = .ok w → l.getD j .none = w := by
    intro n l w h hw
    obtain ⟨v, hv, hg⟩ := h j e he
    rw [hw] at hg; cases hg
    rw [List.getD_eq_getElem?_getD, hv]; rfl
  refine ⟨key k1 rfl, key k2 rfl, key k3 rfl, key k4 rfl, key k5 rfl, key k6 rfl, key k7 rfl, key k9 rfl, ?_, ?_⟩
  · intro b hb
    refine key k8 ?_
    have : e.getAttr "compatible" = .ok (match e.compatible with | some b => .bool b | none => .none) := rfl
    rw [this, hb]
  · intro f hf
    refine key k0 ?_
    have : e.getAttr "flip_direction" = .ok (match e.flip with | some f => .int f | none => .none) := rfl
    rw [this, hf]

/-- **C64**, LaTeX (partial): one row per feature in column order with name, bounds, grid size and step size;
float features have type "real"; a feature is called not changeable iff it is not actionable, changeable both
ways ("yes") iff it is actionable without step direction, and features that may only increase are described so.
Missing, and false (`C64_latex_refuted`): features that may only decrease, and the types of integer and binary
features. -/
theorem C64_latex_partial {ext : Ext K} {A : ActionSet K} (hr : A.Reachable ext) :
    ∃ rows, A.toLatex = .ok rows ∧ rows.length = A.elems.length ∧
      ∀ (j : ℕ) (e : Elem K), A.elems[j]? = some e → ∃ r, rows[j]? = some r ∧
        r.name = .str e.name ∧ r.lb = .flt e.bounds.lb ∧ r.ub = .flt e.bounds.ub ∧
        r.gridSize = .int e.grid.vals.length ∧ r.stepSize = .flt e.stepSize ∧
        (e.vtype = .float → r.type = .real) ∧
        (r.mutability = "no" ↔ e.actionable = false) ∧
        (r.mutability = "yes" ↔ e.actionable = true ∧ e.stepDir = 0) ∧
        (e.actionable = true → e.stepDir = 1 → r.mutability = "only increases") := by
  obtain ⟨rows, h, hlen, hk⟩ := C64_df hr
  unfold ActionSet.toLatex
  rw [h]
  refine ⟨_, rfl, by simp [hlen], ?_⟩
  intro j e he
  obtain ⟨r, hrj, h1, h2, h3, h4, h5, h6, h7, h8, -, -⟩ := hk j e he
  refine ⟨texRow r, by rw [List.getElem?_map, hrj]; rfl, h1, h3, h4, h5, h6, ?_, ?_, ?_, ?_⟩
  · intro _
    simp only [texRow, h2, equalsIntString]
    rfl
  · simp only [texRow, h7, h8, upIdx, dnIdx]
    cases e.actionable <;> by_cases hd : e.stepDir = 0 <;> simp [hd]
  · simp only [texRow, h7, h8, upIdx, dnIdx]
    cases e.actionable <;> by_cases hd : e.stepDir = 0 <;> simp [hd]
  · intro ha hd
    simp [texRow, h7, h8, ha, hd, upIdx, dnIdx]

/-- **C64** refuted: a feature that may only decrease is described as "only increases", and an integer feature
as real. -/
theorem C64_latex_refuted : ∃ A : ActionSet ℚ,
    mkActionSet [[0], [2], [5], [7]] ["a"] 1 [] (.tuple [.int 0, .int 7]) (.str "relative") = .ok A ∧
    A.elems.map (·.vtype) = [.int] ∧
    (A.setAttr "step_direction" (.int (-1))).1.elems.map (·.stepDir) = [-1] ∧
    ∃ rows, (A.setAttr "step_direction" (.int (-1))).1.toLatex = .ok rows ∧
      rows.map (fun r => (r.type, r.mutability)) = [(.real, "only increases")] := by
  decide +kernel

/-- **C64**, printing: `str(A)` shows eleven columns of the set's attributes, one entry per feature in column
order. -/
theorem C64_print {ext : Ext K} {A : ActionSet K} (_hr : A.Reachable ext) :
    ∃ cols, A.tabulate .set = .ok cols ∧
      cols.map (·.1) = ["name", "variable type", "actionable", "compatible", "step direction", "flip direction",
        "grid size", "step type", "step size", "lb", "ub"] ∧
      (∀ c ∈ cols, c.2.length = A.elems.length) ∧
      ∀ (k : ℕ) (c : String × List (PyVal K)), cols[k]? = some c → ∃ attr : String,
        (["name", "variable_type", "actionable", "compatible", "step_direction", "flip_direction", "size",
          "step_type", "step_size", "lb", "ub"] : List String)[k]? = some attr ∧ A.getAttr attr = .ok (.list c.2) := by
  obtain ⟨l1, g1, n1, k1⟩ := getAttr_list (n := "name") (by decide) A
  obtain ⟨l2, g2, n2, k2⟩ := getAttr_list (n := "variable_type") (by decide) A
  obtain ⟨l3, g3, n3, k3⟩ := getAttr_list (n := "lb") (by decide) A
  obtain ⟨l4, g4, n4, k4⟩ := getAttr_list (n := "ub") (by decide) A
  obtain ⟨l5, g5, n5, k5⟩ := getAttr_list (n := "size") (by decide) A
  obtain ⟨l6, g6, n6, k6⟩ := getAttr_list (n := "step_size") (by decide) A
  obtain ⟨l7, g7, n7, k7⟩ := getAttr_list (n := "actionable") (by decide) A
  obtain ⟨l8, g8, n8, k8⟩ := getAttr_list (n := "compatible") (by decide) A
  obtain ⟨l9, g9, n9, k9⟩ := getAttr_list (n := "step_direction") (by decide) A
  obtain ⟨l0, g0, n0, k0⟩ := getAttr_list (n := "flip_direction") (by decide) A
  obtain ⟨l11, g11, n11, k11⟩ := getAttr_list (n := "step_type") (by decide) A
  have ht : A.tabulate .set = .ok [("name", l1), ("variable type", l2), ("actionable", l7), ("compatible", l8),
      ("step direction", l9), ("flip direction", l0), ("grid size", l5), ("step type", l11), ("step size", l6),
      ("lb", l3), ("ub", l4)] := by
    unfold ActionSet.tabulate
    simp only [decide_true, pyAssert_true, ok_bind, List.mapM_cons, List.mapM_nil, g1, g2, g3, g4, g5, g6, g7, g8,
      g9, g0, g11, PyVal.items]
    rfl
  refine ⟨_, ht, rfl, ?_, ?_⟩
  · simp [n1, n2, n3, n4, n5, n6, n7, n8, n9, n0, n11]
  · intro k c hc
    rcases k with _ | _ | _ | _ | _ | _ | _ | _ | _ | _ | _ | k
    · cases hc; exact ⟨_, rfl, g1⟩
    · cases hc; exact ⟨_, rfl, g2⟩
    · cases hc; exact ⟨_, rfl, g7⟩
    · cases hc; exact ⟨_, rfl, g8⟩
    · cases hc; exact ⟨_, rfl, g9⟩
    · cases hc; exact ⟨_, rfl, g0⟩
    · cases hc; exact ⟨_, rfl, g5⟩
    · cases hc; exact ⟨_, rfl, g11⟩
    · cases hc; exact ⟨_, rfl, g6⟩
    · cases hc; exact ⟨_, rfl, g3⟩
    · cases hc; exact ⟨_, rfl, g4⟩
    · cases hc

/-- **C64** refuted for slices: `str(A[...])` always raises `AssertionError`. -/
theorem C64_slice_refuted (A : ActionSet K) : A.tabulate .slice = .error .assertion := rfl

end Recourse
