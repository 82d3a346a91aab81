import Verif.Props.Refresh

/-!
# C122: the order in which settings are assigned
-/

set_option linter.unusedSectionVars false

namespace Recourse

variable {K : Type} [Field K] [LinearOrder K] [IsStrictOrderedRing K] [FloorRing K]

variable {e e1 e2 : Elem K} {a b : String} {v w : PyVal K}

/-- The settings of a feature, by what they are about: `bounds`, `lb` and `ub` are about the same thing, so are `step_type` and
`step_size`. -/
def topics : List (List String) :=
  [["bounds", "lb", "ub"], ["step_type", "step_size"], ["actionable"], ["variable_type"], ["flip_direction"], ["step_direction"]]

/-- Settings about different things. -/
def Unrelated (a b : String) : Prop := ∃ p q : List String, p ∈ topics ∧ q ∈ topics ∧ a ∈ p ∧ b ∈ q ∧ p ≠ q

/-- The bounds after an assignment to `lb`. -/
def newLb (b : Bound K) (values : List K) (v : PyVal K) : Except Err (Bound K) :=
  match b.btype with
  | .percentile => mkBound (.str "percentile") v (.flt b.qub) (some values) none
  | .absolute => mkBound (.str "absolute") v (.flt b.ub) (some values) none

/-- The bounds after an assignment to `ub`. -/
def newUb (b : Bound K) (values : List K) (v : PyVal K) : Except Err (Bound K) :=
  match b.btype with
  | .percentile => mkBound (.str "percentile") (.flt b.qlb) v (some values) none
  | .absolute => mkBound (.str "absolute") (.flt b.lb) v (some values) none

theorem set_lb (e : Elem K) (v : PyVal K) : e.setAttr "lb" v = (newLb e.bounds e.values v).bind fun b => .ok { e with bounds := b } := by
  change e.setLb v = _
  unfold Elem.setLb newLb
  cases e.bounds.btype <;> rfl

theorem set_ub (e : Elem K) (v : PyVal K) : e.setAttr "ub" v = (newUb e.bounds e.values v).bind fun b => .ok { e with bounds := b } := by
  change e.setUb v = _
  unfold Elem.setUb newUb
  cases e.bounds.btype <;> rfl

theorem set_bounds (e : Elem K) (v : PyVal K) :
    e.setAttr "bounds" v = (parseBounds e.values v).bind fun b => .ok { e with bounds := b } := rfl
theorem set_actionable (e : Elem K) (v : PyVal K) :
    e.setAttr "actionable" v = (parseActionable v).bind fun b => .ok { e with actionable := b } := rfl
theorem set_vtype (e : Elem K) (v : PyVal K) :
    e.setAttr "variable_type" v = (parseVType e.values v).bind fun b => .ok { e with vtype := b } := rfl
theorem set_flip (e : Elem K) (v : PyVal K) :
    e.setAttr "flip_direction" v = (scalarNum v).bind fun b => .ok { e with flip := some (sgn b) } := rfl
theorem set_stepDir (e : Elem K) (v : PyVal K) :
    e.setAttr "step_direction" v = (scalarNum v).bind fun b => .ok { e with stepDir := sgn b } := rfl
theorem set_stepType (e : Elem K) (v : PyVal K) :
    e.setAttr "step_type" v = (parseStepType v).bind fun b => .ok { e with stepType := b } := rfl
theorem set_stepSize (e : Elem K) (v : PyVal K) :
    e.setAttr "step_size" v = (parseStepSize e.stepType v).bind fun b => .ok { e with stepSize := b } := rfl

theorem ebind_ok {α β : Type} {x : Except Err α} {k : α → Except Err β} {r : β} :
    x.bind k = .ok r ↔ ∃ u, x = .ok u ∧ k u = .ok r := by
  cases x with
  | error er => exact ⟨fun h => (by cases h), fun ⟨_, h, _⟩ => (by cases h)⟩
  | ok u => exact ⟨fun h => ⟨u, rfl, h⟩, fun ⟨_, h, h'⟩ => (by cases h; exact h')⟩

/-- **C122.**  Two settings about different things can be assigned in either order:
if both assignments are accepted in one order they are in the other, and the feature is the same. -/
theorem C122_commute (hab : Unrelated a b) (h1 : e.setAttr a v = .ok e1) (h2 : e1.setAttr b w = .ok e2) :
    ∃ f1, e.setAttr b w = .ok f1 ∧ f1.setAttr a v = .ok e2 := by
  obtain ⟨p, q, hp, hq, ha, hb, hne⟩ := hab
  simp only [topics, List.mem_cons, List.not_mem_nil, or_false] at hp hq
  rcases hp with rfl | rfl | rfl | rfl | rfl | rfl <;> rcases hq with rfl | rfl | rfl | rfl | rfl | rfl <;>
    first
    | exact absurd rfl hne
    | (simp only [List.mem_cons, List.not_mem_nil, or_false] at ha hb
       rcases ha with rfl | rfl | rfl <;> rcases hb with rfl | rfl | rfl <;>
         (simp only [set_lb, set_ub, set_bounds, set_actionable, set_vtype, set_flip, set_stepDir, set_stepType, set_stepSize,
            ebind_ok] at h1 h2 ⊢
          obtain ⟨r, hr, h⟩ := h1
          cases h
          obtain ⟨s, hs, h⟩ := h2
          cases h
          exact ⟨_, ⟨s, hs, rfl⟩, r, hr, rfl⟩))
    | (simp only [List.mem_cons, List.not_mem_nil, or_false] at ha hb
       rcases ha with rfl | rfl | rfl <;> rcases hb with rfl | rfl <;>
         (simp only [set_lb, set_ub, set_bounds, set_actionable, set_vtype, set_flip, set_stepDir, set_stepType, set_stepSize,
            ebind_ok] at h1 h2 ⊢
          obtain ⟨r, hr, h⟩ := h1
          cases h
          obtain ⟨s, hs, h⟩ := h2
          cases h
          exact ⟨_, ⟨s, hs, rfl⟩, r, hr, rfl⟩))

/-- The call raised the exception `er`. -/
def isError {α : Type} : Except Err α → Err → Bool
  | .error er, er' => decide (er = er')
  | .ok _, _ => false

theorem isError_eq {α : Type} {r : Except Err α} {er : Err} (h : isError r er = true) : r = .error er := by
  cases r with
  | ok _ => cases h
  | error e => rw [of_decide_eq_true h]

/-- `step_type` and `step_size`: if both orders are accepted, they give the same feature. -/
theorem C122_steps (h1 : e.setAttr "step_type" v = .ok e1) (h2 : e1.setAttr "step_size" w = .ok e2) {f1 f2 : Elem K}
    (g1 : e.setAttr "step_size" w = .ok f1) (g2 : f1.setAttr "step_type" v = .ok f2) : f2 = e2 := by
  simp only [set_stepType, set_stepSize, ebind_ok] at h1 h2 g1 g2
  obtain ⟨r, hr, h⟩ := h1
  cases h
  obtain ⟨s, hs, h⟩ := h2
  cases h
  obtain ⟨s', hs', h⟩ := g1
  cases h
  obtain ⟨r', hr', h⟩ := g2
  cases h
  rw [hr] at hr'
  cases hr'
  have key : ∀ (st : StepType) (t : K), parseStepSize st w = .ok t → stepNum w = .ok t := by
    intro st t h
    unfold parseStepSize at h
    obtain ⟨n, hn, h⟩ := bind_ok_iff.mp h
    obtain ⟨-, h⟩ := pyAssert_bind_ok.mp h
    obtain ⟨-, h⟩ := pyAssert_bind_ok.mp h
    cases h
    exact hn
  have := (key _ _ hs).symm.trans (key _ _ hs')
  cases this
  rfl

/-- The last assignment counts: for every setting but `lb` and `ub`, an assignment that is followed by another to the same setting
leaves no trace: the second assignment is accepted or raises as it would have without the first, with the same result. -/
theorem C122_last (ha : a ∈ ["bounds", "step_type", "step_size", "actionable", "variable_type", "flip_direction", "step_direction"])
    (h1 : e.setAttr a v = .ok e1) : e1.setAttr a w = e.setAttr a w := by
  simp only [List.mem_cons, List.not_mem_nil, or_false] at ha
  rcases ha with rfl | rfl | rfl | rfl | rfl | rfl | rfl <;>
    (simp only [set_bounds, set_actionable, set_vtype, set_flip, set_stepDir, set_stepType, set_stepSize, ebind_ok] at h1 ⊢
     obtain ⟨r, hr, h⟩ := h1
     cases h
     rfl)

theorem mkBound_abs122 {vs : List K} {l u : PyVal K} {r : Bound K} (h : mkBound (.str "absolute") l u (some vs) none = .ok r) :
    ∃ x y, absNum (some vs) npMin l = .ok x ∧ absNum (some vs) npMax u = .ok y ∧ r.btype = .absolute ∧
      r.lb = (if determineType vs = .int then (⌊x⌋ : K) else x) ∧ r.ub = (if determineType vs = .int then (⌈y⌉ : K) else y) ∧
      r.qlb = 0 ∧ r.qub = 100 := by
  unfold mkBound at h
  simp only [bind_ok_iff] at h
  obtain ⟨vt, hvt, bt, hbt, p, hp, _, -, h⟩ := h
  cases hvt
  have : bt = .absolute := by
    have h0 : parseBType (PyVal.str "absolute" : PyVal K) = .ok .absolute := rfl
    exact (Except.ok.inj (h0.symm.trans hbt)).symm
  subst this
  unfold boundPair at hp
  simp only [bind_ok_iff] at hp
  obtain ⟨x, hx, y, hy, hp⟩ := hp
  cases hp
  refine ⟨x, y, hx, hy, ?_⟩
  dsimp only at h
  by_cases hi : determineType vs = .int
  · rw [if_pos hi] at h; cases h
    rw [if_pos hi, if_pos hi]; exact ⟨rfl, rfl, rfl, rfl, rfl⟩
  · rw [if_neg hi] at h; cases h
    rw [if_neg hi, if_neg hi]; exact ⟨rfl, rfl, rfl, rfl, rfl⟩

theorem mkBound_perc122 {vs : List K} {l u : PyVal K} {r : Bound K} (h : mkBound (.str "percentile") l u (some vs) none = .ok r) :
    ∃ x y, boundNum l = .ok x ∧ boundNum u = .ok y ∧ r.btype = .percentile ∧
      r.lb = (if determineType vs = .int then (⌊npPercentile vs x⌋ : K) else npPercentile vs x) ∧
      r.ub = (if determineType vs = .int then (⌈npPercentile vs y⌉ : K) else npPercentile vs y) ∧ r.qlb = x ∧ r.qub = y := by
  unfold mkBound at h
  simp only [bind_ok_iff] at h
  obtain ⟨vt, hvt, bt, hbt, p, hp, _, -, h⟩ := h
  cases hvt
  have : bt = .percentile := by
    have h0 : parseBType (PyVal.str "percentile" : PyVal K) = .ok .percentile := rfl
    exact (Except.ok.inj (h0.symm.trans hbt)).symm
  subst this
  unfold boundPair at hp
  simp only [bind_ok_iff] at hp
  obtain ⟨x, hx, y, hy, _, -, _, -, hp⟩ := hp
  cases hp
  refine ⟨x, y, hx, hy, ?_⟩
  dsimp only at h
  by_cases hi : determineType vs = .int
  · rw [if_pos hi] at h; cases h
    rw [if_pos hi, if_pos hi]; exact ⟨rfl, rfl, rfl, rfl, rfl⟩
  · rw [if_neg hi] at h; cases h
    rw [if_neg hi, if_neg hi]; exact ⟨rfl, rfl, rfl, rfl, rfl⟩

/-- `lb` and `ub`: if both orders are accepted, they give the same feature. -/
theorem C122_bounds (h1 : e.setAttr "lb" v = .ok e1) (h2 : e1.setAttr "ub" w = .ok e2) {f1 f2 : Elem K}
    (g1 : e.setAttr "ub" w = .ok f1) (g2 : f1.setAttr "lb" v = .ok f2) : f2 = e2 := by
  simp only [set_lb, set_ub, ebind_ok] at h1 h2 g1 g2
  obtain ⟨r, hr, h⟩ := h1
  cases h
  obtain ⟨s, hs, h⟩ := h2
  cases h
  obtain ⟨s', hs', h⟩ := g1
  cases h
  obtain ⟨r', hr', h⟩ := g2
  cases h
  have hb : ∀ b b' : Bound K, b.btype = b'.btype → b.lb = b'.lb → b.ub = b'.ub → b.qlb = b'.qlb → b.qub = b'.qub → b = b' := by
    intro b b' _ _ _ _ _
    cases b; cases b'; simp_all
  have key : r' = s := by
    dsimp only at hs hr'
    unfold newLb at hr hr'
    unfold newUb at hs hs'
    cases hbt : e.bounds.btype with
    | absolute =>
      rw [hbt] at hr hs'
      obtain ⟨x, y, a1, -, a3, a4, -⟩ := mkBound_abs122 hr
      obtain ⟨x', y', -, b2, b3, -, b5, -⟩ := mkBound_abs122 hs'
      rw [a3] at hs
      rw [b3] at hr'
      obtain ⟨x2, y2, c1, c2, c3, c4, c5, c6, c7⟩ := mkBound_abs122 hs
      obtain ⟨x3, y3, d1, d2, d3, d4, d5, d6, d7⟩ := mkBound_abs122 hr'
      have e1 : x2 = r.lb := by
        have h0 : (absNum (some e.values) npMin (.flt r.lb) : Except Err K) = .ok r.lb := rfl
        exact (Except.ok.inj (h0.symm.trans c1)).symm
      have e2 : y3 = s'.ub := by
        have h0 : (absNum (some e.values) npMax (.flt s'.ub) : Except Err K) = .ok s'.ub := rfl
        exact (Except.ok.inj (h0.symm.trans d2)).symm
      have e3 : x3 = x := Except.ok.inj (d1.symm.trans a1)
      have e4 : y2 = y' := Except.ok.inj (c2.symm.trans b2)
      subst e3 e4
      refine hb _ _ (d3.trans c3.symm) ?_ ?_ (d6.trans c6.symm) (d7.trans c7.symm)
      · rw [d4, c4, e1, a4]
        by_cases hi : determineType e.values = .int
        · simp only [if_pos hi, Int.floor_intCast]
        · simp only [if_neg hi]
      · rw [d5, c5, e2, b5]
        by_cases hi : determineType e.values = .int
        · simp only [if_pos hi, Int.ceil_intCast]
        · simp only [if_neg hi]
    | percentile =>
      rw [hbt] at hr hs'
      obtain ⟨x, y, a1, -, a3, a4, -, a6, -⟩ := mkBound_perc122 hr
      obtain ⟨x', y', -, b2, b3, -, b5, -, b7⟩ := mkBound_perc122 hs'
      rw [a3] at hs
      rw [b3] at hr'
      obtain ⟨x2, y2, c1, c2, c3, c4, c5, c6, c7⟩ := mkBound_perc122 hs
      obtain ⟨x3, y3, d1, d2, d3, d4, d5, d6, d7⟩ := mkBound_perc122 hr'
      have e1 : x2 = x := by
        have h0 : (boundNum (.flt r.qlb) : Except Err K) = .ok r.qlb := rfl
        rw [← a6]; exact (Except.ok.inj (h0.symm.trans c1)).symm
      have e2 : y3 = y' := by
        have h0 : (boundNum (.flt s'.qub) : Except Err K) = .ok s'.qub := rfl
        rw [← b7]; exact (Except.ok.inj (h0.symm.trans d2)).symm
      have e3 : x3 = x := Except.ok.inj (d1.symm.trans a1)
      have e4 : y2 = y' := Except.ok.inj (c2.symm.trans b2)
      subst e1 e2 e3 e4
      exact hb _ _ (d3.trans c3.symm) (d4.trans c4.symm) (d5.trans c5.symm) (d6.trans c6.symm) (d7.trans c7.symm)
  rw [key]

theorem elem?_set_ne {A : ActionSet K} {n m : String} (hne : n ≠ m) (hn : n ∈ A.names) (u : Elem K) :
    ({ A with elems := A.elems.set (A.names.idxOf n) u } : ActionSet K).elem? m = A.elem? m := by
  unfold ActionSet.elem?
  dsimp only
  by_cases hm : m ∈ A.names
  · rw [if_pos hm, if_pos hm, List.getElem?_set_ne]
    intro h
    apply hne
    have h1 : A.names[A.names.idxOf n]'(List.idxOf_lt_length_of_mem hn) = n := List.getElem_idxOf _
    have h2 : A.names[A.names.idxOf m]'(List.idxOf_lt_length_of_mem hm) = m := List.getElem_idxOf _
    rw [← h1, ← h2]
    congr 1
  · rw [if_neg hm, if_neg hm]

theorem mem_of_elem? {A : ActionSet K} {n : String} {u : Elem K} (h : A.elem? n = some u) : n ∈ A.names := by
  unfold ActionSet.elem? at h
  by_contra hn
  rw [if_neg hn] at h
  cases h

/-- Assignments to attributes of different features of an action set can be made in any order: the set in the end and the replies
(also the exceptions) are the same.  This holds for all attributes, and for names of features that do not exist. -/
theorem C122_features (A : ActionSet K) {n m : String} (hne : n ≠ m) (a b : String) (v w : PyVal K) :
    ((A.setElemAttr n a v).1.setElemAttr m b w).1 = ((A.setElemAttr m b w).1.setElemAttr n a v).1 ∧
    (A.setElemAttr n a v).2 = ((A.setElemAttr m b w).1.setElemAttr n a v).2 ∧
    ((A.setElemAttr n a v).1.setElemAttr m b w).2 = (A.setElemAttr m b w).2 := by
  have fail : ∀ (B : ActionSet K) (k c : String) (z : PyVal K),
      ((∃ u u', B.elem? k = some u ∧ u.setAttr c z = .ok u' ∧
        B.setElemAttr k c z = ({ B with elems := B.elems.set (B.names.idxOf k) u' }, .ok ())) ∨
      ∃ er, B.setElemAttr k c z = (B, .error er)) := by
    intro B k c z
    unfold ActionSet.setElemAttr
    cases h : B.elem? k with
    | none => exact Or.inr ⟨_, rfl⟩
    | some u =>
      dsimp only
      cases h' : u.setAttr c z with
      | error er => exact Or.inr ⟨_, rfl⟩
      | ok u' => exact Or.inl ⟨u, u', rfl, h', rfl⟩
  rcases fail A n a v with ⟨u, u', h1, h2, h3⟩ | ⟨er, h3⟩
  · rcases fail A m b w with ⟨r, r', k1, k2, k3⟩ | ⟨er', k3⟩
    · have hn := mem_of_elem? h1
      have hm := mem_of_elem? k1
      have e1 : ({ A with elems := A.elems.set (A.names.idxOf n) u' } : ActionSet K).setElemAttr m b w =
          ({ A with elems := (A.elems.set (A.names.idxOf n) u').set (A.names.idxOf m) r' }, .ok ()) := by
        unfold ActionSet.setElemAttr
        rw [elem?_set_ne hne hn, k1]
        dsimp only
        rw [k2]
      have e2 : ({ A with elems := A.elems.set (A.names.idxOf m) r' } : ActionSet K).setElemAttr n a v =
          ({ A with elems := (A.elems.set (A.names.idxOf m) r').set (A.names.idxOf n) u' }, .ok ()) := by
        unfold ActionSet.setElemAttr
        rw [elem?_set_ne (Ne.symm hne) hm, h1]
        dsimp only
        rw [h2]
      rw [h3, k3]
      dsimp only
      rw [e1, e2]
      refine ⟨?_, rfl, rfl⟩
      dsimp only
      rw [List.set_comm]
      intro h
      apply hne
      have h1 : A.names[A.names.idxOf n]'(List.idxOf_lt_length_of_mem hn) = n := List.getElem_idxOf _
      have h2 : A.names[A.names.idxOf m]'(List.idxOf_lt_length_of_mem hm) = m := List.getElem_idxOf _
      rw [← h1, ← h2]
      congr 1
    · have hn := mem_of_elem? h1
      have e1 : ({ A with elems := A.elems.set (A.names.idxOf n) u' } : ActionSet K).setElemAttr m b w =
          ({ A with elems := A.elems.set (A.names.idxOf n) u' }, .error er') := by
        unfold ActionSet.setElemAttr at k3 ⊢
        rw [elem?_set_ne hne hn]
        cases hk : A.elem? m with
        | none => rw [hk] at k3; cases k3; rfl
        | some r =>
          rw [hk] at k3
          dsimp only at k3 ⊢
          cases hr : r.setAttr b w with
          | error e0 => rw [hr] at k3; cases k3; rfl
          | ok r' => rw [hr] at k3; simp at k3
      rw [k3, h3]
      dsimp only
      rw [e1]
      exact ⟨rfl, rfl, rfl⟩
  · rcases fail A m b w with ⟨r, r', k1, k2, k3⟩ | ⟨er', k3⟩
    · have hm := mem_of_elem? k1
      have e2 : ({ A with elems := A.elems.set (A.names.idxOf m) r' } : ActionSet K).setElemAttr n a v =
          ({ A with elems := A.elems.set (A.names.idxOf m) r' }, .error er) := by
        unfold ActionSet.setElemAttr at h3 ⊢
        rw [elem?_set_ne (Ne.symm hne) hm]
        cases hk : A.elem? n with
        | none => rw [hk] at h3; cases h3; rfl
        | some u =>
          rw [hk] at h3
          dsimp only at h3 ⊢
          cases hr : u.setAttr a v with
          | error e0 => rw [hr] at h3; cases h3; rfl
          | ok r' => rw [hr] at h3; simp at h3
      rw [h3, k3]
      dsimp only
      rw [e2]
      exact ⟨rfl, rfl, rfl⟩
    · rw [h3, k3]
      dsimp only
      rw [h3]
      exact ⟨rfl, rfl, rfl⟩

/-- The restriction to settings about different things is needed: for settings about the same thing the order matters.  A step of size 2 needs `step_type = 'absolute'`
first; to move the bounds from `[0, 1]` to `[5, 6]` `ub` has to be assigned first; and an assignment of `bounds` overrides `lb`. -/
theorem C122_order_matters : ∃ e : Elem ℚ, e.Reachable exExt ∧
    (∃ e1 e2, e.setAttr "step_type" (.str "absolute") = .ok e1 ∧ e1.setAttr "step_size" (.flt 2) = .ok e2) ∧
    e.setAttr "step_size" (.flt 2) = .error .assertion ∧
    (∃ e1 e2, e.setAttr "ub" (.flt 6) = .ok e1 ∧ e1.setAttr "lb" (.flt 5) = .ok e2) ∧
    e.setAttr "lb" (.flt 5) = .error .assertion ∧
    ∃ e1 e2 f1 f2, e.setAttr "lb" (.flt (1 / 2)) = .ok e1 ∧ e1.setAttr "bounds" (.list [.flt 0, .flt 1]) = .ok e2 ∧
      e.setAttr "bounds" (.list [.flt 0, .flt 1]) = .ok f1 ∧ f1.setAttr "lb" (.flt (1 / 2)) = .ok f2 ∧
      e2.bounds.lb = 0 ∧ f2.bounds.lb = 1 / 2 := by
  have key : ∃ e : Elem ℚ,
      mkElem "a" [0, 1 / 2, 1] (.list [.flt 0, .flt 1]) (some .float) true (.str "relative") 0 (.flt (1 / 2)) = .ok e ∧
      (∃ e1, e.setAttr "step_type" (.str "absolute") = .ok e1 ∧ ∃ e2, e1.setAttr "step_size" (.flt 2) = .ok e2 ∧ True) ∧
      (∃ e1, e.setAttr "ub" (.flt 6) = .ok e1 ∧ ∃ e2, e1.setAttr "lb" (.flt 5) = .ok e2 ∧ True) ∧
      (∃ e1, e.setAttr "lb" (.flt (1 / 2)) = .ok e1 ∧ ∃ e2, e1.setAttr "bounds" (.list [.flt 0, .flt 1]) = .ok e2 ∧
        e2.bounds.lb = 0) ∧
      (∃ f1, e.setAttr "bounds" (.list [.flt 0, .flt 1]) = .ok f1 ∧ ∃ f2, f1.setAttr "lb" (.flt (1 / 2)) = .ok f2 ∧
        f2.bounds.lb = 1 / 2) ∧
      isError (e.setAttr "step_size" (.flt 2)) .assertion ∧ isError (e.setAttr "lb" (.flt 5)) .assertion := by
    decide +kernel
  obtain ⟨e, h1, ⟨e1, h2, e2, h3, -⟩, ⟨e3, h4, e4, h5, -⟩, ⟨e5, h6, e6, h7, h8⟩, ⟨f1, k1, f2, k2, k3⟩, k4, k5⟩ := key
  exact ⟨e, .mk h1, ⟨e1, e2, h2, h3⟩, isError_eq k4, ⟨e3, e4, h4, h5⟩, isError_eq k5, e5, e6, f1, f2, h6, h7, k1, k2, h8, k3⟩

/-- The settings of C122 are accepted in a concrete case. -/
theorem C122_example : ∃ e e1 e2 : Elem ℚ, e.Reachable exExt ∧ Unrelated "lb" "step_size" ∧
    e.setAttr "lb" (.flt (1 / 2)) = .ok e1 ∧ e1.setAttr "step_size" (.flt (1 / 4)) = .ok e2 := by
  have key : ∃ e : Elem ℚ,
      mkElem "a" [0, 1 / 2, 1] (.list [.flt 0, .flt 1]) (some .float) true (.str "relative") 0 (.flt (1 / 2)) = .ok e ∧
      ∃ e1, e.setAttr "lb" (.flt (1 / 2)) = .ok e1 ∧ ∃ e2, e1.setAttr "step_size" (.flt (1 / 4)) = .ok e2 ∧ True := by
    decide +kernel
  obtain ⟨e, h1, e1, h2, e2, h3, -⟩ := key
  exact ⟨e, e1, e2, .mk h1, ⟨["bounds", "lb", "ub"], ["step_type", "step_size"], by decide, by decide, by decide, by decide, by decide⟩,
    h2, h3⟩

end Recourse
