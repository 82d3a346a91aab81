import Verif.Lemmas.ActionSet
import Verif.Lemmas.Bounds
import Verif.Props.Values
import Mathlib.Tactic.Ring

/-!
# Properties C12-C17, C20: action sets
-/

set_option linter.unusedSectionVars false

namespace Recourse

variable {K : Type} [Field K] [LinearOrder K] [IsStrictOrderedRing K] [FloorRing K]

/-! ## C12 -/

theorem alignFlip {y : Int} (hy : y = 1 ∨ y = -1) (c : K) :
    (if 0 < y then sgn c else -(sgn c)) = y * sgn c := by
  rcases hy with rfl | rfl <;> simp

theorem sign_align {y : Int} (hy : y = 1 ∨ y = -1) (c : K) :
    Int.sign (y * sgn c) = y * sgn c := by
  rcases hy with rfl | rfl
  · simp [sgn_sign]
  · rw [Int.sign_mul, sgn_sign]; simp

/-- **C12**: `set_alignment(w)` with as many coefficients as features succeeds, gives feature `j` the
flip direction `y_desired * sign(w[j])`, makes the alignment known and changes nothing else; with any
other number of coefficients it raises. -/
theorem C12_alignment {ext : Ext K} {A : ActionSet K} (hr : A.Reachable ext) (w : List K) :
    (w.length = A.names.length → ∃ A', A.setAlignment w = .ok A' ∧ A'.alignmentKnown = true ∧
      A'.elems.length = A.elems.length ∧
      (∀ (j : ℕ) (e : Elem K) (c : K), A.elems[j]? = some e → w[j]? = some c →
        A'.elems[j]? = some { e with flip := some (A.yDesired * sgn c) }) ∧
      A'.names = A.names ∧ A'.cons = A.cons ∧ A'.yDesired = A.yDesired ∧ A'.extra = A.extra) ∧
    (w.length ≠ A.names.length → A.setAlignment w = .error .assertion) := by
  have hwf := hr.wf
  constructor
  · intro hw
    refine ⟨{ A with
      elems := List.zipWith Elem.setFlip A.elems (w.map fun c => if 0 < A.yDesired then sgn c else -(sgn c)) },
      ?_, ?_, ?_, ?_, rfl, rfl, rfl, rfl⟩
    · simp only [ActionSet.setAlignment, decide_eq_true hw, pyAssert_true, ok_bind]
    · unfold ActionSet.alignmentKnown
      rw [List.all_eq_true]
      intro e he
      rw [List.mem_iff_getElem] at he
      obtain ⟨i, hi, rfl⟩ := he
      simp [Elem.setFlip, Elem.aligned]
    · simp [hwf.length, hw]
    · intro j e c he hc
      simp only [List.getElem?_zipWith, List.getElem?_map, he, hc, Option.map_some]
      simp only [Elem.setFlip, alignFlip hwf.y, sign_align hwf.y]
  · intro hw
    simp [ActionSet.setAlignment, hw, pyAssert, error_bind]

/-! ## C13 -/

/-- A sequence of `y_desired` assignments. -/
def runY (A : ActionSet K) : List Int → Except Err (ActionSet K)
  | [] => .ok A
  | y :: ys => do runY (← A.setYDesired y) ys

/-- How often 0 is assigned while `y_desired` is already -1 (starting from `y`). -/
def zeroAtMinus (y : Int) : List Int → ℕ
  | [] => 0
  | v :: vs => (if v = 0 ∧ y = -1 then 1 else 0) + zeroAtMinus (if 0 < v then 1 else -1) vs

theorem runY_flip {ext : Ext K} {w : List K} (ys : List Int) {A A' : ActionSet K} (hwf : A.WF ext)
    (s : Int) (hs : s = 1 ∨ s = -1)
    (hA : ∀ (j : ℕ) (e : Elem K) (c : K), A.elems[j]? = some e → w[j]? = some c → e.flip = some (s * A.yDesired * sgn c))
    (hl : w.length = A.elems.length)
    (h : runY A ys = .ok A') :
    ∀ (j : ℕ) (e : Elem K) (c : K), A'.elems[j]? = some e → w[j]? = some c →
      e.flip = some ((-1) ^ zeroAtMinus A.yDesired ys * s * A'.yDesired * sgn c) := by
  induction ys generalizing A s with
  | nil => cases h; simpa [zeroAtMinus] using hA
  | cons y ys ih =>
    obtain ⟨A1, h1, h2⟩ := bind_ok_iff.mp h
    have hwf1 := setYDesired_wf hwf h1
    have hk : A.alignmentKnown = true := by
      unfold ActionSet.alignmentKnown
      rw [List.all_eq_true]
      intro e he
      rw [List.mem_iff_getElem] at he
      obtain ⟨i, hi, rfl⟩ := he
      have := hA i _ (w[i]'(by omega)) (List.getElem?_eq_getElem hi) (List.getElem?_eq_getElem _)
      unfold Elem.aligned
      rw [this]; rfl
    obtain ⟨hy, ⟨he, rfl⟩ | ⟨hne, -, rfl⟩ | ⟨-, hc, -⟩⟩ := setYDesired_ok h1
    · -- assignment of the current value
      have hb : zeroAtMinus A1.yDesired (y :: ys) = zeroAtMinus A1.yDesired ys := by
        simp only [zeroAtMinus]
        rcases hwf.y with h | h <;> rw [h] at he ⊢ <;> subst he <;> simp
      rw [hb]
      exact ih hwf1 s hs hA hl h2
    · have hb : ∃ b : Int, (b = 1 ∨ b = -1) ∧ (-1) ^ zeroAtMinus A.yDesired (y :: ys) =
          b * (-1) ^ zeroAtMinus (if 0 < y then 1 else -1) ys ∧
          -A.yDesired = b * (if 0 < y then 1 else -1) := by
        simp only [zeroAtMinus]
        rcases hwf.y with h | h <;> rw [h] at hne ⊢ <;> rcases hy with rfl | rfl | rfl
        · exact ⟨1, by simp, by simp, by simp⟩
        · exact ⟨1, by simp, by simp, by simp⟩
        · exact absurd rfl hne
        · exact absurd rfl hne
        · exact ⟨-1, by simp, by simp [pow_add], by simp⟩
        · exact ⟨1, by simp, by simp, by simp⟩
      obtain ⟨b, hb1, hb2, hb3⟩ := hb
      have hbs : b * s = 1 ∨ b * s = -1 := by
        rcases hb1 with rfl | rfl <;> rcases hs with rfl | rfl <;> simp
      have := ih hwf1 (b * s) hbs ?_ (by simpa using hl) h2
      · intro j e c he hc
        rw [this j e c he hc, hb2]
        congr 1
        ring
      · intro j e c he hc
        simp only [List.getElem?_map, Option.map_eq_some_iff] at he
        obtain ⟨e0, he0, rfl⟩ := he
        have h0 := hA j e0 c he0 hc
        simp only [Elem.setFlip, h0, Option.getD_some]
        congr 1
        have e1 : -(s * A.yDesired * sgn c) = (b * s) * ((if 0 < y then 1 else -1) * sgn c) := by
          calc -(s * A.yDesired * sgn c) = s * (-A.yDesired) * sgn c := by ring
            _ = _ := by rw [hb3]; ring
        rw [e1, Int.sign_mul, sign_align]
        · rcases hbs with h | h <;> rw [h] <;> simp [mul_assoc]
        · split_ifs <;> simp
    · rw [hk] at hc; cases hc

/-- **C13** (partial).  After `set_alignment(w)` and any sequence of `y_desired` assignments the flip
direction of feature `j` is `y_desired * sign(w[j])` up to one sign change for each assignment of 0
while `y_desired` was -1; in particular the full property holds for all histories without such
assignments (second part).  It is false in general (`C13_consistency_refuted`). -/
theorem C13_consistency_partial {ext : Ext K} {A A1 A2 : ActionSet K} (hr : A.Reachable ext)
    {w : List K} (h1 : A.setAlignment w = .ok A1) {ys : List Int} (h2 : runY A1 ys = .ok A2)
    {j : ℕ} {e : Elem K} {c : K} (he : A2.elems[j]? = some e) (hc : w[j]? = some c) :
    e.flip = some ((-1) ^ zeroAtMinus A1.yDesired ys * A2.yDesired * sgn c) ∧
    (zeroAtMinus A1.yDesired ys = 0 → e.flip = some (A2.yDesired * sgn c)) := by
  have hlen := (setAlignment_ok h1).1
  obtain ⟨A', h1', -, hl, hfl, -, -, hy, -⟩ := (C12_alignment hr w).1 hlen
  rw [h1] at h1'; cases h1'
  have hwf1 : A1.WF ext := (hr.align h1).wf
  have key := runY_flip (w := w) ys hwf1 1 (Or.inl rfl) ?_ (by rw [hl, hr.wf.length, hlen]) h2 j e c he hc
  · simp only [mul_one] at key
    refine ⟨key, fun h0 => ?_⟩
    rw [key, h0]; simp
  · intro j e c he hc
    have hj : j < A.elems.length := by
      rw [← hl]; exact (List.getElem?_eq_some_iff.mp he).1
    have := hfl j (A.elems[j]) c (List.getElem?_eq_getElem hj) hc
    rw [this] at he
    cases he
    simp [hy]

/-- Two binary features, used in the examples below. -/
def exX2 : List (List ℚ) := [[0, 0], [1, 1]]

/-- Three binary features. -/
def exX3 : List (List ℚ) := [[0, 0, 0], [1, 1, 1]]

/-- **C13** refuted: `y_desired` is -1 and stays -1 when 0 is assigned, yet every flip direction is
inverted. -/
theorem C13_consistency_refuted : ∃ A : ActionSet ℚ,
    mkActionSet exX2 ["a", "b"] (-1) [] defaultBounds (.str "relative") = .ok A ∧
    ∃ A1, A.setAlignment [1, -1] = .ok A1 ∧ A1.elems.map (·.flip) = [some (-1), some 1] ∧
    ∃ A2, runY A1 [0] = .ok A2 ∧ A2.yDesired = A1.yDesired ∧
      A2.elems.map (·.flip) = [some 1, some (-1)] := by decide +kernel

/-- Non-vacuity of C12 and C13: a history in which `y_desired` goes 1, -1, -1, 1. -/
example : ∃ A : ActionSet ℚ,
    mkActionSet exX2 ["a", "b"] 1 [] defaultBounds (.str "relative") = .ok A ∧
    ∃ A1, A.setAlignment [1, -1] = .ok A1 ∧ A1.elems.map (·.flip) = [some 1, some (-1)] ∧
    zeroAtMinus A1.yDesired [0, -1, 1] = 0 ∧
    ∃ A2, runY A1 [0, -1, 1] = .ok A2 ∧ A2.elems.map (·.flip) = [some 1, some (-1)] := by
  decide +kernel

/-! ## C14 -/

/-- Scalars that the broadcasting code accepts. -/
def IsScalar : PyVal K → Prop
  | .bool _ | .int _ | .flt _ | .str _ => True
  | _ => False

theorem assignLoop_ok {attr : String} {es : List (Elem K)} {vs : List (PyVal K)}
    (hl : vs.length = es.length) (h : (assignLoop attr es vs).2 = .ok ()) :
    ∀ (j : ℕ) (e : Elem K) (v : PyVal K), es[j]? = some e → vs[j]? = some v →
      ∃ e', (assignLoop attr es vs).1[j]? = some e' ∧ e.setAttr attr v = .ok e' := by
  induction es generalizing vs with
  | nil => intro j e v he; simp at he
  | cons e0 es ih =>
    cases vs with
    | nil => simp at hl
    | cons v0 vs =>
      unfold assignLoop at h ⊢
      cases hs : e0.setAttr attr v0 with
      | error er => rw [hs] at h; cases h
      | ok e' =>
        rw [hs] at h
        intro j e v he hv
        cases j with
        | zero =>
          simp only [List.getElem?_cons_zero, Option.some.injEq] at he hv
          subst he hv
          exact ⟨e', rfl, hs⟩
        | succ j =>
          simp only [List.getElem?_cons_succ] at he hv
          simpa using ih (by simpa using hl) h j e v he hv

theorem setAttr_broadcast {A A' : ActionSet K} {attr : String} {v : PyVal K} {vs : List (PyVal K)}
    (ha : hasElemAttr attr = true) (hv : expandValues A.names.length v = .ok vs)
    (hl : vs.length = A.elems.length) (h : A.setAttr attr v = (A', .ok ())) :
    (∀ (j : ℕ) (e : Elem K) (u : PyVal K), A.elems[j]? = some e → vs[j]? = some u →
      ∃ e', A'.elems[j]? = some e' ∧ e.setAttr attr u = .ok e') ∧
    A'.names = A.names ∧ A'.cons = A.cons ∧ A'.yDesired = A.yDesired := by
  unfold ActionSet.setAttr at h
  rw [if_pos ha, hv] at h
  simp only [Prod.mk.injEq] at h
  obtain ⟨rfl, h⟩ := h
  exact ⟨assignLoop_ok hl h, rfl, rfl, rfl⟩

/-- **C14** (partial).  If `A.attr = v` succeeds (`attr` an attribute of features) then
* a scalar `v` has been assigned to every feature,
* a list or array `[v1, ..., vd]` (d the number of features) has been assigned elementwise,
* an array with one entry has been assigned to every feature,
* but for `d ≠ 1` a *list* with one entry has been assigned as a list to every feature, which is the
  defect behind `C14_broadcast_refuted`;
names, constraints and `y_desired` are unchanged. -/
theorem C14_broadcast_partial {ext : Ext K} {A A' : ActionSet K} (hr : A.Reachable ext)
    {attr : String} (ha : hasElemAttr attr = true) {v : PyVal K} (h : A.setAttr attr v = (A', .ok ())) :
    (IsScalar v → ∀ (j : ℕ) (e : Elem K), A.elems[j]? = some e → ∃ e', A'.elems[j]? = some e' ∧ e.setAttr attr v = .ok e') ∧
    (∀ vs, (v = .list vs ∨ v = .arr vs) → vs.length = A.names.length →
      ∀ (j : ℕ) (e : Elem K) (u : PyVal K), A.elems[j]? = some e → vs[j]? = some u →
        ∃ e', A'.elems[j]? = some e' ∧ e.setAttr attr u = .ok e') ∧
    (∀ u, v = .arr [u] → ∀ (j : ℕ) (e : Elem K), A.elems[j]? = some e →
        ∃ e', A'.elems[j]? = some e' ∧ e.setAttr attr u = .ok e') ∧
    (∀ u, v = .list [u] → A.names.length ≠ 1 → ∀ (j : ℕ) (e : Elem K), A.elems[j]? = some e →
        ∃ e', A'.elems[j]? = some e' ∧ e.setAttr attr (.list [u]) = .ok e') ∧
    A'.names = A.names ∧ A'.cons = A.cons ∧ A'.yDesired = A.yDesired := by
  have hlen := hr.wf.length
  have hrep : ∀ {u : PyVal K} {j : ℕ} {e : Elem K}, A.elems[j]? = some e →
      (List.replicate A.names.length u)[j]? = some u := by
    intro u j e he
    have : j < A.names.length := by rw [← hlen]; exact (List.getElem?_eq_some_iff.mp he).1
    simp [this]
  have hfix : A'.names = A.names ∧ A'.cons = A.cons ∧ A'.yDesired = A.yDesired := by
    unfold ActionSet.setAttr at h
    rw [if_pos ha] at h
    split at h
    · cases h
    · simp only [Prod.mk.injEq] at h
      obtain ⟨rfl, -⟩ := h
      exact ⟨rfl, rfl, rfl⟩
  refine ⟨?_, ?_, ?_, ?_, hfix⟩
  · intro hs j e he
    have hv : expandValues A.names.length v = .ok (List.replicate A.names.length v) := by
      cases v <;> first | rfl | exact hs.elim
    exact (setAttr_broadcast ha hv (by simp [hlen]) h).1 j e v he (hrep he)
  · rintro vs hv hvl j e u he hu
    have hv : expandValues A.names.length v = .ok vs := by
      rcases hv with rfl | rfl <;> simp [expandValues, hvl]
    exact (setAttr_broadcast ha hv (by rw [hvl, hlen]) h).1 j e u he hu
  · rintro u rfl j e he
    have hv : expandValues A.names.length (.arr [u]) = .ok (List.replicate A.names.length u) := by
      by_cases h1 : A.names.length = 1
      · simp [expandValues, h1]
      · simp [expandValues, Ne.symm h1]
    exact (setAttr_broadcast ha hv (by simp [hlen]) h).1 j e u he (hrep he)
  · rintro u rfl hd j e he
    have hv : expandValues A.names.length (.list [u])
        = .ok (List.replicate A.names.length (.list [u])) := by
      simp [expandValues, Ne.symm hd]
    exact (setAttr_broadcast ha hv (by simp [hlen]) h).1 j e _ he (hrep he)

/-- **C14** refuted: `A.actionable = [False]` on two features succeeds and makes both *actionable*. -/
theorem C14_broadcast_refuted : ∃ A : ActionSet ℚ,
    mkActionSet exX2 ["a", "b"] 1 [] defaultBounds (.str "relative") = .ok A ∧
    (A.setAttr "actionable" (.bool false)).1.elems.map (·.actionable) = [false, false] ∧
    ((A.setAttr "actionable" (.bool false)).1.setAttr "actionable" (.list [.bool false])).2 = .ok () ∧
    ((A.setAttr "actionable" (.bool false)).1.setAttr "actionable" (.list [.bool false])).1.elems.map
      (·.actionable) = [true, true] := by decide +kernel

/-- Non-vacuity: scalar and elementwise assignment. -/
example : hasElemAttr "step_direction" = true ∧ ∃ A : ActionSet ℚ,
    mkActionSet exX2 ["a", "b"] 1 [] defaultBounds (.str "relative") = .ok A ∧
    (A.setAttr "step_direction" (.int 1)).2 = .ok () ∧
    (A.setAttr "step_direction" (.list [.int 1, .int (-1)])).2 = .ok () ∧
    (A.setAttr "step_direction" (.list [.int 1, .int (-1)])).1.elems.map (·.stepDir) = [1, -1] := by
  decide +kernel

/-! ## C15 -/

theorem pyPos_iff {n p : ℕ} {i : Int} :
    pyPos n i = .ok p ↔ p < n ∧ (i = p ∨ i = (p : Int) - n) := by
  unfold pyPos
  split_ifs with h1 h2
  · simp only [Except.ok.injEq]; omega
  · simp only [Except.ok.injEq]; omega
  · simp only [reduceCtorEq, false_iff]; omega

theorem mapM_ok_map {α β γ : Type} {f : α → Except Err β} {l : List α} {r : List β} {g : β → γ}
    {k : α → γ} (hiff : ∀ a b, f a = .ok b ↔ g b = k a) : l.mapM f = .ok r ↔ r.map g = l.map k := by
  rw [mapM_ok_iff]
  constructor
  · intro h; exact Forall2_map_eq h fun a b hab => (hiff a b).mp hab
  · intro h
    induction l generalizing r with
    | nil => cases r with
      | nil => exact .nil
      | cons _ _ => simp at h
    | cons a l ih => cases r with
      | nil => simp at h
      | cons b r =>
        simp only [List.map_cons, List.cons.injEq] at h
        exact .cons ((hiff a b).mpr h.1) (ih h.2)

theorem posOfName_iff {A : ActionSet K} (hn : A.names.Nodup) {n : String} {p : ℕ} :
    A.posOfName n = .ok p ↔ A.names[p]? = some n := by
  unfold ActionSet.posOfName
  split_ifs with h
  · simp only [Except.ok.injEq]
    constructor
    · rintro rfl; exact List.getElem?_idxOf h
    · intro hp
      obtain ⟨hlt, he⟩ := List.getElem?_eq_some_iff.mp hp
      rw [← he]; exact hn.idxOf_getElem p hlt
  · simp only [reduceCtorEq, false_iff]
    intro hp
    obtain ⟨hlt, he⟩ := List.getElem?_eq_some_iff.mp hp
    exact h (he ▸ List.getElem_mem _)

/-- The position an integer index denotes in Python: `i` itself, or counted from the end. -/
def IntIndex (n : ℕ) (i : Int) (p : ℕ) : Prop := p < n ∧ (i = p ∨ i = (p : Int) - n)

/-- **C15** (partial).  `A[...]` selects, in the given order,
* for a name or a list of names: the features with those names (and fails if one is unknown),
* for an integer or a list / array of integers: the features at those positions (negative ones from
  the end; fails if one is out of range),
* for a boolean array of the right length: the features where it is true,
* for a slice `i:j` with nonnegative ends: the features at positions `i ≤ p < j`.
Missing from the full property: masks given as lists of bool, where it is false
(`C15_selection_refuted`). -/
theorem C15_selection_partial {ext : Ext K} {A : ActionSet K} (hr : A.Reachable ext) :
    (∀ n pos, A.getItem (.str n) = .ok pos ↔ ∃ p, pos = [p] ∧ A.names[p]? = some n) ∧
    (∀ ns pos, ns ≠ [] → (A.getItem (.list (ns.map .str)) = .ok pos ↔
      pos.map (A.names[·]?) = ns.map some)) ∧
    (∀ i pos, A.getItem (.int i) = .ok pos ↔ ∃ p, pos = [p] ∧ IntIndex A.names.length i p) ∧
    (∀ is pos, is ≠ [] → (A.getItem (.list (is.map .int)) = .ok pos ↔
      List.Forall₂ (IntIndex A.names.length) is pos)) ∧
    (∀ is pos, A.getItem (.ints is) = .ok pos ↔ List.Forall₂ (IntIndex A.names.length) is pos) ∧
    (∀ m : List Bool, m.length = A.names.length → ∃ pos, A.getItem (.mask m) = .ok pos ∧
      pos.Pairwise (· < ·) ∧ ∀ p, p ∈ pos ↔ m[p]? = some true) ∧
    (∀ i j : ℕ, ∃ pos, A.getItem (.slice (some i) (some j)) = .ok pos ∧ pos.Pairwise (· < ·) ∧
      ∀ p, p ∈ pos ↔ p < A.names.length ∧ i ≤ p ∧ p < j) := by
  have hn := hr.wf.distinct
  refine ⟨?_, ?_, ?_, ?_, ?_, ?_, ?_⟩
  · intro n pos
    simp only [ActionSet.getItem, bind_ok_iff, posOfName_iff hn]
    constructor
    · rintro ⟨p, hp, h⟩; cases h; exact ⟨p, rfl, hp⟩
    · rintro ⟨p, rfl, hp⟩; exact ⟨p, hp, rfl⟩
  · intro ns pos hne
    obtain ⟨s, t, rfl⟩ := List.exists_cons_of_ne_nil hne
    have e : A.getItem (.list ((s :: t).map .str)) = ((s :: t).map .str).mapM A.listNamePos := rfl
    rw [e, List.mapM_map]
    rw [show (A.listNamePos ∘ PyVal.str) = A.posOfName from rfl]
    exact mapM_ok_map (g := (A.names[·]?)) (k := some) fun a b => posOfName_iff hn
  · intro i pos
    simp only [ActionSet.getItem, bind_ok_iff, pyPos_iff]
    constructor
    · rintro ⟨p, hp, h⟩; cases h; exact ⟨p, rfl, hp⟩
    · rintro ⟨p, rfl, hp⟩; exact ⟨p, hp, rfl⟩
  · intro is pos hne
    obtain ⟨s, t, rfl⟩ := List.exists_cons_of_ne_nil hne
    have e : A.getItem (.list ((s :: t).map .int))
        = ((s :: t).map (PyVal.int (K := K))).mapM (listIntPos A.names.length) := rfl
    rw [e, List.mapM_map,
      show (listIntPos A.names.length ∘ PyVal.int (K := K)) = pyPos A.names.length from rfl,
      mapM_ok_iff]
    exact ⟨fun h => h.imp fun a b => pyPos_iff.mp, fun h => h.imp fun a b => pyPos_iff.mpr⟩
  · intro is pos
    simp only [ActionSet.getItem]
    rw [mapM_ok_iff]
    exact ⟨fun h => h.imp fun a b => pyPos_iff.mp, fun h => h.imp fun a b => pyPos_iff.mpr⟩
  · intro m hm
    refine ⟨_, by simp only [ActionSet.getItem]; rw [if_pos hm], List.pairwise_lt_range.filter _, ?_⟩
    intro p
    simp only [List.mem_filter, List.mem_range]
    rw [List.getD_eq_getElem?_getD]
    constructor
    · rintro ⟨h1, h2⟩
      rw [List.getElem?_eq_getElem h1] at h2 ⊢
      simpa using h2
    · intro h
      refine ⟨(List.getElem?_eq_some_iff.mp h).1, by rw [h]; rfl⟩
  · intro i j
    refine ⟨_, by simp only [ActionSet.getItem]; rfl, List.pairwise_lt_range.filter _, ?_⟩
    intro p
    rw [List.mem_filter, List.mem_range, decide_eq_true_iff]
    simp only [Option.map_some, Option.getD_some, clampIdx]
    constructor
    · rintro ⟨h1, h2, h3⟩
      refine ⟨h1, ?_, ?_⟩ <;> split_ifs at h2 h3 <;> omega
    · rintro ⟨h1, h2, h3⟩
      refine ⟨h1, ?_, ?_⟩ <;> split_ifs <;> omega

/-- **C15**, slices with arbitrary ends: `A[i:j]` selects in increasing order the positions from `i` (default
0) up to but excluding `j` (default the number of features), negative ends counted from the end. -/
theorem C15_slices (A : ActionSet K) (i j : Option Int) :
    ∃ pos, A.getItem (.slice i j) = .ok pos ∧ pos.Pairwise (· < ·) ∧
      ∀ p : ℕ, p ∈ pos ↔ p < A.names.length ∧
        (∀ a ∈ i, (0 ≤ a → a ≤ p) ∧ (a < 0 → a + A.names.length ≤ p)) ∧
        (∀ b ∈ j, (0 ≤ b → (p : Int) < b) ∧ (b < 0 → (p : Int) < b + A.names.length)) := by
  refine ⟨_, by simp only [ActionSet.getItem]; rfl, List.pairwise_lt_range.filter _, ?_⟩
  intro p
  rw [List.mem_filter, List.mem_range, decide_eq_true_iff]
  refine and_congr_right fun hp => and_congr ?_ ?_
  · cases i with
    | none => simp
    | some a =>
      simp only [Option.map_some, Option.getD_some, clampIdx, Option.mem_def, Option.some.injEq,
        forall_eq']
      split_ifs <;> constructor <;> intro h
      · exact ⟨fun h0 => by omega, fun _ => by omega⟩
      · have := h.2 (by omega); omega
      · exact ⟨fun h0 => by omega, fun _ => by omega⟩
      · have := h.1 (by omega); omega
  · cases j with
    | none => simp [hp]
    | some a =>
      simp only [Option.map_some, Option.getD_some, clampIdx, Option.mem_def, Option.some.injEq,
        forall_eq']
      split_ifs <;> constructor <;> intro h
      · exact ⟨fun h0 => by omega, fun _ => by omega⟩
      · have := h.2 (by omega); omega
      · exact ⟨fun h0 => by omega, fun _ => by omega⟩
      · have := h.1 (by omega); omega

/-- **C15** refuted for lists of bool: with three features, `A[[True, False, True]]` selects the features
at positions 1, 0, 1 instead of 0, 2. -/
theorem C15_selection_refuted : ∃ A : ActionSet ℚ,
    mkActionSet exX3 ["a", "b", "c"] 1 [] defaultBounds (.str "relative") = .ok A ∧
    ∃ pos, A.getItem (.list [.bool true, .bool false, .bool true]) = .ok pos ∧ pos = [1, 0, 1] := by
  decide +kernel

/-- Non-vacuity: selections by names and slices. -/
example : ∃ A : ActionSet ℚ,
    mkActionSet exX3 ["a", "b", "c"] 1 [] defaultBounds (.str "relative") = .ok A ∧
    (∃ pos, A.getItem (.list [.str "c", .str "a"]) = .ok pos ∧ pos = [2, 0]) ∧
    (∃ pos, A.getItem (.slice (some 1) (some 3)) = .ok pos ∧ pos = [1, 2]) ∧
    (∃ pos, A.getItem (.int (-1)) = .ok pos ∧ pos = [2]) := by decide +kernel

/-! ## C16 -/

/-- **C16** (partial).  The documented way, `A[name].attr = v` with a name `attr` that is no attribute of
features (such as `mutable`), always succeeds on an existing feature and changes no feasible value of
any feature at any point; on a slice it raises and changes nothing, on the whole set it is inert too.
Only `actionable = False` makes a feature immutable. -/
theorem C16_mutable_partial {ext : Ext K} {A : ActionSet K} (hr : A.Reachable ext) {attr : String}
    (hp : attrOf attr = .plain) (hne : hasElemAttr attr = false) (v : PyVal K) :
    (∀ n ∈ A.names, ∃ A', A.setElemAttr n attr v = (A', .ok ()) ∧ ∀ (j : ℕ) (e e' : Elem K), A.elems[j]? = some e →
      A'.elems[j]? = some e' → ∀ x ra drop, e'.feasibleValues x ra drop = e.feasibleValues x ra drop) ∧
    (∀ idx pos, A.getItem idx = .ok pos → A.setSliceAttr idx attr v = (A, .error .assertion)) ∧
    (attr ≠ "y_desired" → (A.setAttr attr v).1.elems = A.elems) ∧
    (∀ e ∈ A.elems, ∃ e', e.setAttr "actionable" (.bool false) = .ok e' ∧
      ∀ x ra drop l, e'.feasibleValues x ra drop = .ok l → l = [if ra then 0 else x]) := by
  have hplain : ∀ e : Elem K, e.setAttr attr v = .ok { e with extra := (attr, v) :: e.extra } := by
    intro e; unfold Elem.setAttr; rw [hp]
  refine ⟨?_, ?_, ?_, ?_⟩
  · intro n hn
    have hlt : A.names.idxOf n < A.elems.length := by
      rw [hr.wf.length]; exact List.idxOf_lt_length_iff.mpr hn
    have he : A.elem? n = some (A.elems[A.names.idxOf n]) := by
      unfold ActionSet.elem?
      rw [if_pos hn, List.getElem?_eq_getElem hlt]
    refine ⟨_, by unfold ActionSet.setElemAttr; rw [he]; simp only [hplain]; rfl, ?_⟩
    intro j e e' h1 h2 x ra drop
    rw [List.getElem?_set] at h2
    split_ifs at h2 with h3
    · subst h3
      rw [List.getElem?_eq_getElem hlt] at h1
      cases h1; cases h2
      rfl
    · rw [h1] at h2; cases h2; rfl
  · intro idx pos hg
    unfold ActionSet.setSliceAttr
    rw [hg]; simp [hne]
  · intro hy
    unfold ActionSet.setAttr
    simp only [hne, Bool.false_eq_true, if_false, if_neg hy]
    cases plainAttr attr v <;> rfl
  · intro e _
    refine ⟨{ e with actionable := false }, ?_, ?_⟩
    · unfold Elem.setAttr
      rw [show attrOf "actionable" = .actionable from by decide]
      simp [parseActionable, isinBool, isBoolLike, truthy, pyAssert, ok_bind]
    · intro x ra drop l hl
      exact C07_immutable rfl hl

example : attrOf "mutable" = .plain ∧ hasElemAttr "mutable" = false ∧ "mutable" ≠ "y_desired" := by
  decide +kernel

/-- **C16** refuted: after `A["a"].mutable = False` feature `a` at 0 is still offered a change. -/
theorem C16_mutable_refuted : ∃ A : ActionSet ℚ,
    mkActionSet exX2 ["a", "b"] 1 [] defaultBounds (.str "relative") = .ok A ∧
    (A.setElemAttr "a" "mutable" (.bool false)).2 = .ok () ∧
    (A.setElemAttr "a" "mutable" (.bool false)).1.elems.map (fun e => (e.feasX 0 true).length)
      = [2, 2] := by decide +kernel

/-! ## C17 -/

/-- The grid of a default binary feature is `[0, 1]`. -/
theorem binary_grid {n : String} {v : List K} {e : Elem K}
    (h : mkElem n v (.tuple [.int 0, .int 1, .str "absolute"]) (some .bool) true (.str "absolute") 0 (.int 1)
      = .ok e) : e.grid.vals = [0, 1] := by
  have hs := mkElem_spec h
  have hv : e.vtype = .bool := hs.2.2.2.2.2.1
  unfold mkElem at h
  simp only [bind_ok_iff] at h
  obtain ⟨_, -, _, -, b, hb, st, hst, s, hss, g, hg, _, -, h⟩ := h
  cases h
  have hb' : b.lb = 0 ∧ b.ub = 1 := by
    simp only [parseBounds, mkBound, boundVType, parseBType, boundPair, absNum, boundNum, ok_bind] at hb
    simp only [bind_ok_iff] at hb
    obtain ⟨_, -, hb⟩ := hb
    split_ifs at hb <;> (cases hb; simp)
  cases hst
  have hs1 : s = 1 := by
    simp only [parseStepSize, stepNum, scalarNum, ok_bind, bind_ok_iff] at hss
    obtain ⟨_, -, _, -, hss⟩ := hss
    cases hss; simp
  subst hs1
  simp only [hb'.1, hb'.2, Option.getD_some] at hg
  simp only [mkGrid, gridParams, arange, reduceCtorEq, if_false, one_ne_zero, ok_bind] at hg
  have : ⌈((1 : K) + 1 - 0) / 1⌉.toNat = 2 := by
    have : ((1 : K) + 1 - 0) / 1 = ((2 : ℤ) : K) := by norm_num
    rw [this, Int.ceil_intCast]; rfl
  rw [this] at hg
  cases hg
  simp [List.range_succ]

/-- **C17**, success: an accepted construction has distinct non-empty names, one per column; the
features appear in column order under their names, are built from the data of their column, unaligned,
actionable, without step direction; binary columns without custom bounds get the grid `[0, 1]`. -/
theorem C17_construction {X : List (List K)} {names : List String} {y : Int}
    {custom : List (String × PyVal K)} {dflt st : PyVal K} {A : ActionSet K}
    (h : mkActionSet X names y custom dflt st = .ok A) :
    names ≠ [] ∧ names.Nodup ∧ (∀ n ∈ names, n ≠ "") ∧ X ≠ [] ∧ (∀ r ∈ X, r.length = names.length) ∧
    A.names = names ∧ A.elems.length = names.length ∧ A.cons.items = [] ∧
    (A.yDesired = 1 ∨ A.yDesired = -1) ∧ A.alignmentKnown = false ∧
    ∀ (j : ℕ) (e : Elem K), A.elems[j]? = some e → names[j]? = some e.name ∧
      (∀ v, v ∈ e.values ↔ ∃ r ∈ X, r[j]? = some v) ∧
      e.vtype = determineType (X.map fun r => r.getD j 0) ∧
      e.flip = none ∧ e.actionable = true ∧ e.stepDir = 0 ∧
      ((∀ r ∈ X, r[j]? = some 0 ∨ r[j]? = some 1) → custom.lookup e.name = none → e.grid.vals = [0, 1]) := by
  obtain ⟨h1, h2, h3, h4, h5, hn, hc, hy⟩ := mkActionSet_spec h
  simp only [checkVariableNames, Bool.and_eq_true, decide_eq_true_eq, List.all_eq_true] at h1
  have hf := mapM_ok_iff.mp h4
  have hlen : A.elems.length = names.length := by rw [mapM_ok_length h4]; simp
  have hne : names ≠ [] := by intro h0; rw [h0] at h1; simp at h1
  have hall : ∀ (j : ℕ) (e : Elem K), A.elems[j]? = some e → ∃ n, names[j]? = some n ∧ mkColumn X custom dflt st j n = .ok e := by
    intro j e he
    obtain ⟨hj, he'⟩ := List.getElem?_eq_some_iff.mp he
    have hj' : j < names.zipIdx.length := by simp; omega
    have := List.forall₂_iff_get.mp hf
    have h6 := this.2 j hj' hj
    simp only [List.get_eq_getElem, List.getElem_zipIdx, zero_add, he'] at h6
    exact ⟨names[j]'(by omega), List.getElem?_eq_getElem _, h6⟩
  refine ⟨hne, h1.2, ?_, ?_, h3, hn, hlen, by rw [hc]; rfl, ?_, ?_, ?_⟩
  · intro n hnm h0
    have := h1.1.2 n hnm
    rw [h0] at this
    simp at this
  · intro h0; rw [h0] at h2; simp at h2
  · rw [hy]; split_ifs <;> simp
  · unfold ActionSet.alignmentKnown
    have hpos : 0 < A.elems.length := by
      rw [hlen]; exact List.length_pos_iff.mpr hne
    obtain ⟨n, -, hm⟩ := hall 0 A.elems[0] (List.getElem?_eq_getElem hpos)
    obtain ⟨_, _, _, _, hm⟩ := mkColumn_spec hm
    have hfl : A.elems[0].flip = none := (mkElem_spec hm).2.2.2.2.2.2.2.2.1
    rw [Bool.eq_false_iff]
    intro hall
    rw [List.all_eq_true] at hall
    have := hall _ (List.getElem_mem hpos)
    unfold Elem.aligned at this
    rw [hfl] at this
    cases this
  · intro j e he
    obtain ⟨n, hnj, hm⟩ := hall j e he
    have hjn : j < names.length := (List.getElem?_eq_some_iff.mp hnj).1
    have hcol : ∀ r ∈ X, r[j]? = some (r.getD j 0) := by
      intro r hr
      have : j < r.length := by rw [h3 r hr]; exact hjn
      rw [List.getD_eq_getElem?_getD, List.getElem?_eq_getElem this]; rfl
    obtain ⟨bd, vt, st', ss, hm'⟩ := mkColumn_spec hm
    obtain ⟨-, -, -, hname, hvals, hvt, hact, hdir, hflip, -⟩ := mkElem_spec hm'
    have hperm : ∀ v, v ∈ e.values ↔ v ∈ column X j := by
      intro v; rw [hvals]; exact (List.perm_insertionSort _ _).mem_iff
    refine ⟨by rw [hnj, hname], ?_, ?_, hflip, hact, by rw [hdir]; simp, ?_⟩
    · intro v
      rw [hperm]
      unfold column
      rw [List.mem_map]
      constructor
      · rintro ⟨r, hr, rfl⟩; exact ⟨r, hr, hcol r hr⟩
      · rintro ⟨r, hr, hv⟩
        rw [hcol r hr] at hv
        cases hv; exact ⟨r, hr, rfl⟩
    · change e.vtype = determineType (column X j)
      unfold mkColumn at hm
      simp only at hm
      split at hm
      · rename_i hd; rw [hd]; exact (mkElem_spec hm).2.2.2.2.2.1
      · rename_i hd; rw [hd]; exact (mkElem_spec hm).2.2.2.2.2.1
      · rename_i hd; rw [hd]; exact (mkElem_spec hm).2.2.2.2.2.1
    · intro hbin hcust
      have hb : ∀ v ∈ column X j, v = 0 ∨ v = 1 := by
        intro v hv
        obtain ⟨r, hr, rfl⟩ := List.mem_map.mp hv
        rcases hbin r hr with h | h
        · left; rw [hcol r hr] at h; exact Option.some.inj h
        · right; rw [hcol r hr] at h; exact Option.some.inj h
      have hd : determineType (column X j) = .bool := by
        unfold determineType
        rw [if_pos, if_pos]
        · rw [List.all_eq_true]; intro v hv; exact decide_eq_true (hb v hv)
        · rw [List.all_eq_true]; intro v hv
          rw [isIntegral_iff]
          rcases hb v hv with rfl | rfl
          · exact ⟨0, by simp⟩
          · exact ⟨1, by simp⟩
      unfold mkColumn at hm
      simp only [hd] at hm
      rw [← hname, hcust] at hm
      exact binary_grid hm

theorem mkGrid_degenerate {vt : VType} {lb ub s : K} (h : lb = ub)
    (hi : vt = .int → ∃ z : ℤ, (z : K) = lb) : mkGrid vt lb ub .relative s = .error .value := by
  subst h
  unfold mkGrid gridParams arange
  have : ∀ z : ℤ, (⌊(z : K)⌋ : K) = z ∧ (⌈(z : K)⌉ : K) = z := by intro z; simp
  by_cases hv : vt = .int
  · obtain ⟨z, hz⟩ := hi hv
    simp [hv, ← hz, error_bind]
  · simp [hv, error_bind]

theorem npPercentile_const {v : List K} {c q : K} (hne : v ≠ []) (hc : ∀ u ∈ v, u = c) (h0 : 0 ≤ q)
    (h1 : q ≤ 100) : npPercentile v q = c := by
  have a := npPercentile_mono hne le_rfl h0 h1
  have b := npPercentile_mono hne h0 h1 le_rfl
  rw [npPercentile_zero hne, hc _ (npMin_mem hne)] at a
  rw [npPercentile_hundred hne, hc _ (npMax_mem hne)] at b
  exact le_antisymm b a

/-- **C17**, degenerate columns: with the default bounds and the default relative step the construction
raises as soon as some column is constant with a value other than 0 and 1 (and no custom bounds are
given for it). -/
theorem C17_constant_column_raises {X : List (List K)} {names : List String} {y : Int}
    {custom : List (String × PyVal K)} {j : ℕ} {n : String} {c : K}
    (hj : names[j]? = some n) (hcust : custom.lookup n = none)
    (hX : ∀ r ∈ X, r[j]? = some c) (h0 : c ≠ 0) (h1 : c ≠ 1) :
    ∃ er, mkActionSet X names y custom defaultBounds (.str "relative") = .error er := by
  cases h : mkActionSet X names y custom defaultBounds (.str "relative") with
  | error er => exact ⟨er, rfl⟩
  | ok A =>
    exfalso
    obtain ⟨-, h2, -, h4, -, -, -, -⟩ := mkActionSet_spec h
    have hmem : (n, j) ∈ names.zipIdx := by
      rw [List.mem_zipIdx_iff_getElem?]; exact hj
    obtain ⟨e, -, hm⟩ := mapM_ok_mem' h4 hmem
    have hcol : ∀ v ∈ column X j, v = c := by
      intro v hv
      obtain ⟨r, hr, rfl⟩ := List.mem_map.mp hv
      rw [List.getD_eq_getElem?_getD, hX r hr]; rfl
    have hcne : column X j ≠ [] := by
      unfold column; intro h0
      have := List.map_eq_nil_iff.mp h0
      rw [this] at h2; simp at h2
    have hcm : c ∈ column X j := by
      obtain ⟨v, hv⟩ := List.exists_mem_of_ne_nil _ hcne
      exact hcol v hv ▸ hv
    have hsort : ∀ v ∈ npSort (column X j), v = c := fun v hv =>
      hcol v ((List.perm_insertionSort _ _).mem_iff.mp hv)
    have hsne : npSort (column X j) ≠ [] := by
      intro h0
      have := (List.perm_insertionSort (· ≤ ·) (column X j)).mem_iff.mpr hcm
      unfold npSort at h0
      rw [h0] at this; simp at this
    -- the default branch with default bounds cannot succeed
    have key : ∀ vt, determineType (npSort (column X j)) = vt →
        mkElem n (column X j) defaultBounds (some vt) true (.str "relative") 0 (.flt (1 / 100)) = .ok e →
        False := by
      intro vt hvt hme
      unfold mkElem at hme
      simp only [bind_ok_iff] at hme
      obtain ⟨_, -, _, -, b, hb, st, hst, s, hss, g, hg, _, -, -⟩ := hme
      cases hst
      have hbb : b.lb = b.ub ∧ (vt = .int → ∃ z : ℤ, (z : K) = b.lb) := by
        have hb' : mkBound (.str "percentile") (.int 1) (.int 99) (some (npSort (column X j))) none = .ok b := hb
        unfold mkBound at hb'
        simp only [boundVType, parseBType, boundPair, boundNum, ok_bind, bind_ok_iff] at hb'
        obtain ⟨p, ⟨_, -, _, -, hp⟩, _, -, hb'⟩ := hb'
        cases hp
        have c1 : npPercentile (npSort (column X j)) ((1 : ℤ) : K) = c :=
          npPercentile_const hsne hsort (by norm_num) (by norm_num)
        have c2 : npPercentile (npSort (column X j)) ((99 : ℤ) : K) = c :=
          npPercentile_const hsne hsort (by norm_num) (by norm_num)
        simp only [c1, c2] at hb'
        have hint : vt = .int → ∃ z : ℤ, (z : K) = c := by
          intro hv
          rw [hv] at hvt
          unfold determineType at hvt
          split_ifs at hvt with ha
          rw [List.all_eq_true] at ha
          obtain ⟨v, hv'⟩ := List.exists_mem_of_ne_nil _ hsne
          have := ha v hv'
          rw [hsort v hv', isIntegral_iff] at this
          exact this
        split_ifs at hb' with hvi
        · rw [hvt] at hvi
          obtain ⟨z, hz⟩ := hint hvi
          cases hb'
          refine ⟨by rw [← hz]; simp, fun _ => ⟨z, by rw [← hz]; simp⟩⟩
        · cases hb'
          exact ⟨rfl, fun hv => absurd (hvt.trans hv) hvi⟩
      rw [show (some vt).getD _ = vt from rfl, mkGrid_degenerate hbb.1 hbb.2] at hg
      cases hg
    have hdt : determineType (npSort (column X j)) = determineType (column X j) := by
      have hpm : ∀ (p : K → Bool), (npSort (column X j)).all p = (column X j).all p := by
        intro p
        rw [Bool.eq_iff_iff, List.all_eq_true, List.all_eq_true]
        exact ⟨fun hh x hx => hh x ((List.perm_insertionSort _ _).mem_iff.mpr hx),
          fun hh x hx => hh x ((List.perm_insertionSort _ _).mem_iff.mp hx)⟩
      unfold determineType; rw [hpm, hpm]
    unfold mkColumn at hm
    simp only at hm
    split at hm
    · rename_i hd
      unfold determineType at hd
      split_ifs at hd with ha hb
      rw [List.all_eq_true] at hb
      have := hb c hcm
      simp only [decide_eq_true_eq] at this
      rcases this with h | h
      · exact h0 h
      · exact h1 h
    · rename_i hd
      rw [hcust] at hm
      exact key .int (hdt.trans hd) hm
    · rename_i hd
      rw [hcust] at hm
      exact key .float (hdt.trans hd) hm

/-- Non-vacuity: a set with a binary, an integer and a real column; and one with a constant column. -/
example : ∃ A : ActionSet ℚ,
    mkActionSet [[0, 3, 0], [1, 5, 1/2], [0, 7, 2]] ["a", "b", "c"] 1 [] defaultBounds (.str "relative") = .ok A ∧
    A.elems.map (·.vtype) = [.bool, .int, .float] := by decide +kernel

example : (match mkActionSet [[0, 3], [1, 3], [0, (3 : ℚ)]] ["a", "b"] 1 [] defaultBounds (.str "relative") with
    | .ok _ => none | .error er => some er) = some .value := by decide +kernel

/-! ## C20 -/

/-- The iteration order of a set lists exactly its members. -/
def SetOrderOk (ext : Ext K) : Prop := ∀ l n, n ∈ ext.setOrder l ↔ n ∈ l

theorem mem_dictSetEntry {l : List (GridEntry K)} {g h : GridEntry K} :
    h ∈ dictSetEntry l g ↔ h = g ∨ (h ∈ l ∧ h.name ≠ g.name) := by
  unfold dictSetEntry
  split_ifs with hany
  · simp only [List.any_eq_true, decide_eq_true_eq] at hany
    obtain ⟨c, hc, hcn⟩ := hany
    rw [List.mem_map]
    constructor
    · rintro ⟨c', hc', rfl⟩
      split_ifs with hn
      · exact Or.inl rfl
      · exact Or.inr ⟨hc', hn⟩
    · rintro (rfl | ⟨h1, h2⟩)
      · exact ⟨c, hc, by rw [if_pos hcn]⟩
      · exact ⟨h, h1, by rw [if_neg h2]⟩
  · rw [List.mem_append, List.mem_singleton]
    constructor
    · rintro (h1 | rfl)
      · refine Or.inr ⟨h1, fun hn => hany ?_⟩
        simp only [List.any_eq_true, decide_eq_true_eq]
        exact ⟨h, h1, hn⟩
      · exact Or.inl rfl
    · rintro (rfl | ⟨h1, -⟩)
      · exact Or.inr rfl
      · exact Or.inl h1

theorem dictSetEntry_names {l : List (GridEntry K)} {g : GridEntry K} (h : (l.map (·.name)).Nodup) :
    ((dictSetEntry l g).map (·.name)).Nodup := by
  unfold dictSetEntry
  split_ifs with hany
  · rw [List.map_map]
    have : ((fun x => x.name) ∘ fun c : GridEntry K => if c.name = g.name then g else c)
        = fun c => c.name := by
      funext c
      simp only [Function.comp]
      split_ifs with hc
      · exact hc.symm
      · rfl
    rw [this]; exact h
  · rw [List.map_append, List.nodup_append]
    refine ⟨h, by simp, ?_⟩
    rintro a ha b hb rfl
    simp only [List.map_cons, List.map_nil, List.mem_singleton] at hb
    obtain ⟨c, hc, rfl⟩ := List.mem_map.mp ha
    apply hany
    simp only [List.any_eq_true, decide_eq_true_eq]
    exact ⟨c, hc, hb⟩

theorem gridEntry_name {ext : Ext K} {n : String} {e : Elem K} {xj : K} {ra drop : Bool}
    {g : GridEntry K} (h : gridEntry ext n e xj ra drop = .ok g) : g.name = n := by
  unfold gridEntry at h
  simp only [bind_ok_iff] at h
  obtain ⟨_, -, _, -, h⟩ := h
  cases h; rfl

/-- The entry that the override loop writes for a name. -/
def overrideEntry (ext : Ext K) (A : ActionSet K) (x : List K) (ra : Bool) (n : String)
    (g : GridEntry K) : Prop :=
  ∃ e xj, A.elem? n = some e ∧ x[A.names.idxOf n]? = some xj ∧ gridEntry ext n e xj ra false = .ok g

theorem overrideEntry_unique {ext : Ext K} {A : ActionSet K} {x : List K} {ra : Bool} {n : String}
    {g g' : GridEntry K} (h : overrideEntry ext A x ra n g) (h' : overrideEntry ext A x ra n g') :
    g = g' := by
  obtain ⟨e, xj, h1, h2, h3⟩ := h
  obtain ⟨e', xj', h1', h2', h3'⟩ := h'
  rw [h1] at h1'; cases h1'
  rw [h2] at h2'; cases h2'
  rw [h3] at h3'; cases h3'
  rfl

theorem overrideLoop_spec {ext : Ext K} {A : ActionSet K} {x : List K} {ra : Bool}
    (ns : List String) {out out' : List (GridEntry K)} (hnd : (out.map (·.name)).Nodup)
    (h : A.overrideLoop ext x ra ns out = .ok out') :
    (out'.map (·.name)).Nodup ∧ (∀ n ∈ ns, ∃ g, overrideEntry ext A x ra n g) ∧
    ∀ g, g ∈ out' ↔ (g ∈ out ∧ g.name ∉ ns) ∨ (g.name ∈ ns ∧ overrideEntry ext A x ra g.name g) := by
  induction ns generalizing out with
  | nil =>
    unfold ActionSet.overrideLoop at h
    cases h
    exact ⟨hnd, by simp, by simp⟩
  | cons n ns ih =>
    unfold ActionSet.overrideLoop at h
    split at h
    · rename_i e he
      split at h
      · rename_i xj hxj
        obtain ⟨g0, hg0, h⟩ := bind_ok_iff.mp h
        obtain ⟨i1, i2, i3⟩ := ih (dictSetEntry_names hnd) h
        have hg0n : g0.name = n := gridEntry_name hg0
        have hent : overrideEntry ext A x ra n g0 := ⟨e, xj, he, hxj, hg0⟩
        refine ⟨i1, ?_, ?_⟩
        · intro m hm
          rcases List.mem_cons.mp hm with rfl | hm
          · exact ⟨g0, hent⟩
          · exact i2 m hm
        · intro g
          rw [i3 g, mem_dictSetEntry]
          constructor
          · rintro (⟨rfl | ⟨h1, h2⟩, h3⟩ | ⟨h1, h2⟩)
            · right; rw [hg0n]; exact ⟨List.mem_cons_self, hent⟩
            · left; rw [hg0n] at h2; exact ⟨h1, by simp [h2, h3]⟩
            · right; exact ⟨List.mem_cons_of_mem _ h1, h2⟩
          · rintro (⟨h1, h2⟩ | ⟨h1, h2⟩)
            · left
              simp only [List.mem_cons, not_or] at h2
              exact ⟨Or.inr ⟨h1, by rw [hg0n]; exact h2.1⟩, h2.2⟩
            · by_cases hgn : g.name ∈ ns
              · exact Or.inr ⟨hgn, h2⟩
              · left
                rcases List.mem_cons.mp h1 with h1 | h1
                · refine ⟨Or.inl ?_, hgn⟩
                  rw [h1] at h2
                  exact overrideEntry_unique h2 hent
                · exact absurd h1 hgn
      · cases h
    · cases h

/-- What the lookup of features relies on: one element per name, distinct names. -/
structure ActionSet.Columns (A : ActionSet K) : Prop where
  length : A.elems.length = A.names.length
  distinct : A.names.Nodup

theorem ActionSet.WF.columns {ext : Ext K} {A : ActionSet K} (h : A.WF ext) : A.Columns := ⟨h.length, h.distinct⟩

theorem cols_mem {A : ActionSet K} (hwf : A.Columns) {x : List K}
    (hx : x.length = A.names.length) {p : String × Elem K × K} :
    p ∈ A.cols x ↔ ∃ j : ℕ, A.names[j]? = some p.1 ∧ A.elems[j]? = some p.2.1 ∧ x[j]? = some p.2.2 := by
  unfold ActionSet.cols
  rw [List.mem_iff_getElem?]
  constructor
  · rintro ⟨j, hj⟩
    rw [List.getElem?_zip_eq_some, List.getElem?_zip_eq_some] at hj
    exact ⟨j, hj⟩
  · rintro ⟨j, hj⟩
    exact ⟨j, by rw [List.getElem?_zip_eq_some, List.getElem?_zip_eq_some]; exact hj⟩

theorem gridEntry_ok {ext : Ext K} {n : String} {e : Elem K} {xj : K} {ra drop : Bool}
    {g : GridEntry K} (h : gridEntry ext n e xj ra drop = .ok g) :
    g.name = n ∧ e.feasibleValues xj ra drop = .ok g.acts ∧
      e.feasiblePercentiles ext xj drop = .ok g.pcts := by
  unfold gridEntry at h
  simp only [bind_ok_iff] at h
  obtain ⟨a, ha, p, hp, h⟩ := h
  cases h; exact ⟨rfl, ha, hp⟩

theorem elem?_eq {A : ActionSet K} (hwf : A.Columns) {j : ℕ} {n : String} {e : Elem K}
    (hj : A.names[j]? = some n) (he : A.elems[j]? = some e) :
    A.elem? n = some e ∧ A.names.idxOf n = j := by
  obtain ⟨hlt, hn⟩ := List.getElem?_eq_some_iff.mp hj
  have : A.names.idxOf n = j := by rw [← hn]; exact hwf.distinct.idxOf_getElem j hlt
  refine ⟨?_, this⟩
  unfold ActionSet.elem?
  rw [if_pos (hn ▸ List.getElem_mem _), this, he]

/-- C20 for any action set with one element per name. -/
theorem feasibleGrid_columns {ext : Ext K} (hso : SetOrderOk ext) {A : ActionSet K}
    (hwf : A.Columns) {x : List K} {out : List (GridEntry K)}
    (h : A.feasibleGrid ext x true true = .ok out) :
    (out.map (·.name)).Nodup ∧ (∀ g ∈ out, g.name ∈ A.names) ∧
    ∀ (j : ℕ) (n : String) (e : Elem K) (xj : K), A.names[j]? = some n → A.elems[j]? = some e → x[j]? = some xj →
      ((∃ g ∈ out, g.name = n) ↔ (e.compatible ≠ some false ∨ ∃ k ∈ A.cons.items, n ∈ k.names)) ∧
      ∀ g ∈ out, g.name = n →
        e.feasibleValues xj true (decide (¬ ∃ k ∈ A.cons.items, n ∈ k.names)) = .ok g.acts ∧
        e.feasiblePercentiles ext xj (decide (¬ ∃ k ∈ A.cons.items, n ∈ k.names)) = .ok g.pcts := by
  unfold ActionSet.feasibleGrid at h
  simp only [bind_ok_iff, pyAssert_ok_iff, decide_eq_true_eq] at h
  obtain ⟨_, hx, base, hbase, h⟩ := h
  simp only [Bool.not_true, Bool.false_or] at hbase
  have hct : ∀ e : Elem K, e.compatTruthy = true ↔ e.compatible ≠ some false := by
    intro e; unfold Elem.compatTruthy
    cases h : e.compatible with
    | none => simp
    | some b => cases b <;> simp
  have hflat : ∀ n, n ∈ A.cons.flatNames ↔ ∃ k ∈ A.cons.items, n ∈ k.names := by
    intro n; unfold Constraints.flatNames; simp [List.mem_flatten]
  -- the entries of the first loop
  have hb1 : ∀ g, g ∈ base ↔ ∃ p ∈ A.cols x, p.2.1.compatible ≠ some false ∧
      gridEntry ext p.1 p.2.1 p.2.2 true true = .ok g := by
    intro g
    constructor
    · intro hg
      obtain ⟨p, hp, hpg⟩ := mapM_ok_mem hbase hg
      rw [List.mem_filter] at hp
      exact ⟨p, hp.1, (hct _).mp hp.2, hpg⟩
    · rintro ⟨p, hp, hc, hpg⟩
      obtain ⟨g', hg', hpg'⟩ := mapM_ok_mem' hbase (List.mem_filter.mpr ⟨hp, (hct _).mpr hc⟩)
      rw [hpg] at hpg'; cases hpg'
      exact hg'
  have hcolnames : (A.cols x).map (·.1) = A.names := by
    unfold ActionSet.cols
    rw [← List.unzip_fst, List.unzip_zip_left]
    simp [hwf.length, hx]
  have hbn : (base.map (·.name)).Nodup := by
    have := Forall2_map_eq (f := fun p : String × Elem K × K => p.1) (g := fun g : GridEntry K => g.name)
      (mapM_ok_iff.mp hbase) (fun p g hpg => gridEntry_name hpg)
    rw [this]
    have h2 := hwf.distinct
    rw [← hcolnames] at h2
    exact h2.sublist (List.filter_sublist.map _)
  -- description of the result, both with and without constraints
  have hres : (out.map (·.name)).Nodup ∧
      (∀ n ∈ A.cons.flatNames, ∃ g, overrideEntry ext A x true n g) ∧
      ∀ g, g ∈ out ↔ (g ∈ base ∧ g.name ∉ A.cons.flatNames) ∨
        (g.name ∈ A.cons.flatNames ∧ overrideEntry ext A x true g.name g) := by
    split_ifs at h with hcons
    · obtain ⟨o1, o2, o3⟩ := overrideLoop_spec _ hbn h
      refine ⟨o1, fun n hn => o2 n ((hso _ n).mpr hn), ?_⟩
      intro g
      rw [o3 g, hso]
    · cases h
      have : A.cons.items = [] := List.length_eq_zero_iff.mp (by omega)
      have hf : A.cons.flatNames = [] := by unfold Constraints.flatNames; rw [this]; rfl
      rw [hf]
      exact ⟨hbn, by simp, by simp⟩
  obtain ⟨r1, r2, r3⟩ := hres
  refine ⟨r1, ?_, ?_⟩
  · intro g hg
    rcases (r3 g).mp hg with ⟨hg, -⟩ | ⟨-, hg⟩
    · obtain ⟨p, hp, -, hpg⟩ := (hb1 g).mp hg
      obtain ⟨j, hj, -⟩ := (cols_mem hwf hx).mp hp
      rw [gridEntry_name hpg]
      exact List.mem_of_getElem? hj
    · obtain ⟨e, xj, he, -⟩ := hg
      unfold ActionSet.elem? at he
      split_ifs at he with hm
      exact hm
  · intro j n e xj hj he hxj
    obtain ⟨hel, hidx⟩ := elem?_eq hwf hj he
    have hpmem : (n, e, xj) ∈ A.cols x := (cols_mem hwf hx).mpr ⟨j, hj, he, hxj⟩
    have hpuniq : ∀ p ∈ A.cols x, p.1 = n → p = (n, e, xj) := by
      rintro ⟨n', e', xj'⟩ hp hpn
      obtain ⟨j', hj', he', hxj'⟩ := (cols_mem hwf hx).mp hp
      dsimp only at hpn hj' he' hxj'
      subst hpn
      have : j' = j := by
        rw [← hidx]; exact ((elem?_eq hwf hj' he').2).symm
      subst this
      rw [he] at he'; rw [hxj] at hxj'
      cases he'; cases hxj'; rfl
    have hd : decide (¬ ∃ k ∈ A.cons.items, n ∈ k.names) = decide (n ∉ A.cons.flatNames) := by
      rw [decide_eq_decide, hflat]
    rw [hd]
    constructor
    · rw [← hflat n]
      constructor
      · rintro ⟨g, hg, rfl⟩
        rcases (r3 g).mp hg with ⟨hg, -⟩ | ⟨hg, -⟩
        · left
          obtain ⟨p, hp, hc, hpg⟩ := (hb1 g).mp hg
          rw [hpuniq p hp (gridEntry_name hpg).symm] at hc
          exact hc
        · exact Or.inr hg
      · intro hor
        by_cases hm : n ∈ A.cons.flatNames
        · obtain ⟨g, hg⟩ := r2 n hm
          have hgn : g.name = n := by obtain ⟨_, _, _, _, h⟩ := hg; exact gridEntry_name h
          exact ⟨g, (r3 g).mpr (Or.inr ⟨hgn ▸ hm, hgn ▸ hg⟩), hgn⟩
        · have hc := hor.resolve_right hm
          obtain ⟨g, hg, hpg⟩ := mapM_ok_mem' hbase (List.mem_filter.mpr ⟨hpmem, (hct _).mpr hc⟩)
          have hgn := gridEntry_name hpg
          dsimp only at hgn
          exact ⟨g, (r3 g).mpr (Or.inl ⟨hg, hgn ▸ hm⟩), hgn⟩
    · rintro g hg rfl
      rcases (r3 g).mp hg with ⟨hg, hm⟩ | ⟨hm, hg⟩
      · obtain ⟨p, hp, hc, hpg⟩ := (hb1 g).mp hg
        rw [hpuniq p hp (gridEntry_name hpg).symm] at hpg
        rw [decide_eq_true hm]
        exact (gridEntry_ok hpg).2
      · obtain ⟨e', xj', he', hxj', hpg⟩ := hg
        rw [hel] at he'; cases he'
        rw [hidx, hxj] at hxj'; cases hxj'
        rw [decide_eq_false (not_not.mpr hm)]
        exact (gridEntry_ok hpg).2

/-- **C20**: for a feature at column `j` of a (reachable) action set, `feasible_grid(x)` with actions and
only compatible features has an entry under its name iff it is compatible (or unaligned) or occurs in
a subset limit; entries have distinct names, are about existing features, and hold the feasible
actions and percentiles of that feature at `x[j]`, with suboptimal directions dropped exactly for the
features in no subset limit. -/
theorem C20_feasible_grid {ext : Ext K} (hso : SetOrderOk ext) {A : ActionSet K}
    (hr : A.Reachable ext) {x : List K} {out : List (GridEntry K)}
    (h : A.feasibleGrid ext x true true = .ok out) :
    (out.map (·.name)).Nodup ∧ (∀ g ∈ out, g.name ∈ A.names) ∧
    ∀ (j : ℕ) (n : String) (e : Elem K) (xj : K), A.names[j]? = some n → A.elems[j]? = some e → x[j]? = some xj →
      ((∃ g ∈ out, g.name = n) ↔ (e.compatible ≠ some false ∨ ∃ k ∈ A.cons.items, n ∈ k.names)) ∧
      ∀ g ∈ out, g.name = n →
        e.feasibleValues xj true (decide (¬ ∃ k ∈ A.cons.items, n ∈ k.names)) = .ok g.acts ∧
        e.feasiblePercentiles ext xj (decide (¬ ∃ k ∈ A.cons.items, n ∈ k.names)) = .ok g.pcts :=
  feasibleGrid_columns hso hr.wf.columns h

example : SetOrderOk exExt := by intro l n; simp [exExt]

/-- Non-vacuity: an aligned set of three features, the first decreasing only (not compatible with its
positive coefficient), the third constrained together with the first. -/
example : ∃ A : ActionSet ℚ,
    mkActionSet exX3 ["a", "b", "c"] 1 [] defaultBounds (.str "relative") = .ok A ∧
    ∃ A' : ActionSet ℚ, (A.setElemAttr "a" "step_direction" (.int (-1))).1.setAlignment [1, 1, -1] = .ok A' ∧
    ∃ r : ActionSet ℚ × String, A'.addConstraint ["a", "c"] 0 1 none = .ok r ∧
    ∃ out : List (GridEntry ℚ), r.1.feasibleGrid exExt [1, 1, 1] true true = .ok out ∧
        out.map (·.name) = ["b", "c", "a"] := by
  decide +kernel

end Recourse
