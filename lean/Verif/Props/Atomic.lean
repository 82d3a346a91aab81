import Verif.Props.Sets

/-!
# Properties C14 (slices) and C57: assignments to slices, failing assignments
-/

set_option linter.unusedSectionVars false

namespace Recourse

variable {K : Type} [Field K] [LinearOrder K] [IsStrictOrderedRing K] [FloorRing K]

/-! ## C14 on slices -/

theorem sliceLoop_ok {attr : String} {vs : List (PyVal K)} {ents : List (ℕ × ℕ)} {es : List (Elem K)}
    (hnd : (ents.map (·.1)).Nodup) (h : (sliceLoop attr vs ents es).2 = .ok ()) :
    (∀ p j, (p, j) ∈ ents → ∃ e v e', es[p]? = some e ∧ vs[j]? = some v ∧ e.setAttr attr v = .ok e' ∧
      (sliceLoop attr vs ents es).1[p]? = some e') ∧
    (∀ p, p ∉ ents.map (·.1) → (sliceLoop attr vs ents es).1[p]? = es[p]?) := by
  induction ents generalizing es with
  | nil => exact ⟨fun p j hm => absurd hm (by simp), fun p _ => rfl⟩
  | cons pj rest ih =>
    obtain ⟨p0, j0⟩ := pj
    simp only [List.map_cons, List.nodup_cons] at hnd
    unfold sliceLoop at h ⊢
    cases he : es[p0]? with
    | none => rw [he] at h; cases h
    | some e =>
      cases hv : vs[j0]? with
      | none => rw [he, hv] at h; cases h
      | some v =>
        rw [he, hv] at h
        simp only at h ⊢
        cases hs : e.setAttr attr v with
        | error er => rw [hs] at h; cases h
        | ok e' =>
          rw [hs] at h
          simp only at h ⊢
          obtain ⟨h1, h2⟩ := ih hnd.2 h
          have hlt : p0 < es.length := (List.getElem?_eq_some_iff.mp he).1
          constructor
          · intro p j hm
            rcases List.mem_cons.mp hm with heq | hm
            · cases heq
              refine ⟨e, v, e', he, hv, hs, ?_⟩
              rw [h2 p0 hnd.1, List.getElem?_set]
              simp [hlt]
            · obtain ⟨e1, v1, e1', g1, g2, g3, g4⟩ := h1 p j hm
              have hne : p0 ≠ p := by
                rintro rfl; exact hnd.1 (List.mem_map.mpr ⟨_, hm, rfl⟩)
              rw [List.getElem?_set_ne hne] at g1
              exact ⟨e1, v1, e1', g1, g2, g3, g4⟩
          · intro p hp
            simp only [List.map_cons, List.mem_cons, not_or] at hp
            rw [h2 p hp.2, List.getElem?_set_ne (Ne.symm hp.1)]

theorem sliceEntries_fst (pos : List ℕ) :
    ((sliceEntries pos).map (·.1)).Nodup ∧ ∀ p, p ∈ (sliceEntries pos).map (·.1) ↔ p ∈ pos := by
  unfold sliceEntries
  rw [List.map_map]
  have e : ((fun p : ℕ × ℕ => p.1) ∘ fun p => (p, pos.length - 1 - List.idxOf p pos.reverse)) = id := rfl
  rw [e, List.map_id]
  refine ⟨List.nodup_reverse.mpr (List.nodup_dedup _), fun p => by simp⟩

theorem sliceEntries_nodup {pos : List ℕ} (h : pos.Nodup) : sliceEntries pos = pos.zipIdx := by
  unfold sliceEntries
  rw [List.dedup_eq_self.mpr (List.nodup_reverse.mpr h), List.reverse_reverse]
  apply List.ext_getElem
  · simp
  · intro k h1 h2
    have hk : k < pos.length := by simpa using h1
    simp only [List.getElem_map, List.getElem_zipIdx, zero_add, Prod.mk.injEq, true_and]
    have hr : pos.length - 1 - k < pos.reverse.length := by rw [List.length_reverse]; omega
    have e2 : pos.reverse[pos.length - 1 - k] = pos[k] := by
      rw [List.getElem_reverse]; congr 1; omega
    rw [← e2, (List.nodup_reverse.mpr h).idxOf_getElem _ hr]
    omega

theorem setSlice_inv {A A' : ActionSet K} {idx : PyIdx K} {pos : List ℕ} {attr : String} {v : PyVal K}
    {vs : List (PyVal K)} (hg : A.getItem idx = .ok pos) (hnd : pos.Nodup) (ha : hasElemAttr attr = true)
    (hv : expandValues pos.length v = .ok vs) (h : A.setSliceAttr idx attr v = (A', .ok ())) :
    (∀ (k p : ℕ) (e : Elem K) (u : PyVal K), pos[k]? = some p → A.elems[p]? = some e → vs[k]? = some u →
      ∃ e', A'.elems[p]? = some e' ∧ e.setAttr attr u = .ok e') ∧
    (∀ p, p ∉ pos → A'.elems[p]? = A.elems[p]?) ∧
    A'.names = A.names ∧ A'.cons = A.cons ∧ A'.yDesired = A.yDesired := by
  unfold ActionSet.setSliceAttr at h
  rw [hg] at h
  simp only [ha, if_true] at h
  have hlen : (sliceEntries pos).length = pos.length := by rw [sliceEntries_nodup hnd]; simp
  rw [hlen, hv] at h
  simp only [Prod.mk.injEq] at h
  obtain ⟨rfl, h⟩ := h
  obtain ⟨h1, h2⟩ := sliceLoop_ok (sliceEntries_fst pos).1 h
  refine ⟨?_, fun p hp => h2 p (by rw [(sliceEntries_fst pos).2]; exact hp), rfl, rfl, rfl⟩
  intro k p e u hk he hu
  obtain ⟨e1, v1, e', g1, g2, g3, g4⟩ := h1 p k (by
    rw [sliceEntries_nodup hnd, List.mem_zipIdx_iff_getElem?]; exact hk)
  rw [he] at g1; cases g1
  rw [hu] at g2; cases g2
  exact ⟨e', g4, g3⟩

/-- **C14** on slices (partial).  If `A[idx].attr = v` succeeds, where `A[idx]` selects distinct features at
positions `pos`, then a scalar `v` has been assigned to every selected feature, a list or array with one entry
per selected feature elementwise in the order of the selection, an array with one entry to all of them; no
other feature is touched.  Missing: one-element lists (`C14_broadcast_refuted`) and selections with repeated
features (`C14_repeated_refuted`). -/
theorem C14_slice_partial {A A' : ActionSet K} {idx : PyIdx K} {pos : List ℕ}
    {attr : String} {v : PyVal K} (hg : A.getItem idx = .ok pos) (hnd : pos.Nodup)
    (ha : hasElemAttr attr = true) (h : A.setSliceAttr idx attr v = (A', .ok ())) :
    (IsScalar v → ∀ (p : ℕ) (e : Elem K), p ∈ pos → A.elems[p]? = some e →
      ∃ e', A'.elems[p]? = some e' ∧ e.setAttr attr v = .ok e') ∧
    (∀ vs, (v = .list vs ∨ v = .arr vs) → vs.length = pos.length →
      ∀ (k p : ℕ) (e : Elem K) (u : PyVal K), pos[k]? = some p → A.elems[p]? = some e → vs[k]? = some u →
        ∃ e', A'.elems[p]? = some e' ∧ e.setAttr attr u = .ok e') ∧
    (∀ u, v = .arr [u] → ∀ (p : ℕ) (e : Elem K), p ∈ pos → A.elems[p]? = some e →
        ∃ e', A'.elems[p]? = some e' ∧ e.setAttr attr u = .ok e') ∧
    (∀ p, p ∉ pos → A'.elems[p]? = A.elems[p]?) ∧
    A'.names = A.names ∧ A'.cons = A.cons ∧ A'.yDesired = A.yDesired := by
  have hrep : ∀ {u : PyVal K} {p : ℕ}, p ∈ pos → ∃ k : ℕ, pos[k]? = some p ∧
      (List.replicate pos.length u)[k]? = some u := by
    intro u p hp
    obtain ⟨k, hk, he⟩ := List.mem_iff_getElem.mp hp
    exact ⟨k, by rw [List.getElem?_eq_getElem hk, he], by simp [hk]⟩
  have hfix : (∀ p, p ∉ pos → A'.elems[p]? = A.elems[p]?) ∧
      A'.names = A.names ∧ A'.cons = A.cons ∧ A'.yDesired = A.yDesired := by
    have hex : ∃ vs, expandValues pos.length v = .ok vs := by
      cases hev : expandValues pos.length v with
      | ok vs => exact ⟨vs, rfl⟩
      | error er =>
        unfold ActionSet.setSliceAttr at h
        rw [hg] at h
        have hlen : (sliceEntries pos).length = pos.length := by rw [sliceEntries_nodup hnd]; simp
        simp only [ha, if_true, hlen, hev] at h
        cases h
    obtain ⟨vs, hv⟩ := hex
    exact (setSlice_inv hg hnd ha hv h).2
  refine ⟨?_, ?_, ?_, hfix⟩
  · intro hs p e hp he
    have hv : expandValues pos.length v = .ok (List.replicate pos.length v) := by
      cases v <;> first | rfl | exact hs.elim
    obtain ⟨k, hk, hu⟩ := hrep (u := v) hp
    exact (setSlice_inv hg hnd ha hv h).1 k p e v hk he hu
  · rintro vs hv hvl k p e u hk he hu
    have hv : expandValues pos.length v = .ok vs := by
      rcases hv with rfl | rfl <;> simp [expandValues, hvl]
    exact (setSlice_inv hg hnd ha hv h).1 k p e u hk he hu
  · rintro u rfl p e hp he
    have hv : expandValues pos.length (.arr [u]) = .ok (List.replicate pos.length u) := by
      by_cases h1 : pos.length = 1
      · simp [expandValues, h1]
      · simp [expandValues, Ne.symm h1]
    obtain ⟨k, hk, hu⟩ := hrep (u := u) hp
    exact (setSlice_inv hg hnd ha hv h).1 k p e u hk he hu

/-- **C14** on a single feature: `A[name].attr = v` assigns `v` to that feature and touches no other; it fails
with `KeyError` for an unknown name. -/
theorem C14_element {ext : Ext K} {A : ActionSet K} (hr : A.Reachable ext) {n attr : String} {v : PyVal K} :
    (∀ (p : ℕ) (e : Elem K), A.names[p]? = some n → A.elems[p]? = some e →
      (∀ e', e.setAttr attr v = .ok e' → ∃ A', A.setElemAttr n attr v = (A', .ok ()) ∧
        A'.elems[p]? = some e' ∧ (∀ q, q ≠ p → A'.elems[q]? = A.elems[q]?) ∧
        A'.names = A.names ∧ A'.cons = A.cons ∧ A'.yDesired = A.yDesired) ∧
      (∀ er, e.setAttr attr v = .error er → A.setElemAttr n attr v = (A, .error er))) ∧
    (n ∉ A.names → A.setElemAttr n attr v = (A, .error .key)) := by
  constructor
  · intro p e hn he
    obtain ⟨hp, hpe⟩ := List.getElem?_eq_some_iff.mp hn
    have hi : A.names.idxOf n = p := by rw [← hpe]; exact hr.wf.distinct.idxOf_getElem p hp
    have hmem : n ∈ A.names := hpe ▸ List.getElem_mem _
    have helem : A.elem? n = some e := by
      unfold ActionSet.elem?; rw [if_pos hmem, hi, he]
    have hlt : p < A.elems.length := (List.getElem?_eq_some_iff.mp he).1
    constructor
    · intro e' hs
      refine ⟨{ A with elems := A.elems.set p e' }, ?_, ?_, ?_, rfl, rfl, rfl⟩
      · unfold ActionSet.setElemAttr; rw [helem]; simp only [hs, hi]
      · simp [hlt]
      · intro q hq; exact List.getElem?_set_ne (Ne.symm hq)
    · intro er hs
      unfold ActionSet.setElemAttr; rw [helem]; simp only [hs]
  · intro hn
    unfold ActionSet.setElemAttr ActionSet.elem?
    rw [if_neg hn]

/-- **C14** refuted for repeated features: `A[["a", "a"]].actionable = False` raises `IndexError`. -/
theorem C14_repeated_refuted : ∃ A : ActionSet ℚ,
    mkActionSet exX2 ["a", "b"] 1 [] defaultBounds (.str "relative") = .ok A ∧
    (A.setSliceAttr (.list [.str "a", .str "a"]) "actionable" (.bool false)).2 = .error .index := by
  decide +kernel

/-- Non-vacuity: elementwise assignment to a slice in reverse order. -/
example : ∃ A : ActionSet ℚ,
    mkActionSet exX3 ["a", "b", "c"] 1 [] defaultBounds (.str "relative") = .ok A ∧
    (∃ pos, A.getItem (.list [.str "c", .str "a"]) = .ok pos ∧ pos.Nodup) ∧
    (A.setSliceAttr (.list [.str "c", .str "a"]) "step_direction" (.list [.int 1, .int (-1)])).2 = .ok () ∧
    (A.setSliceAttr (.list [.str "c", .str "a"]) "step_direction"
      (.list [.int 1, .int (-1)])).1.elems.map (·.stepDir) = [-1, 0, 1] := by
  decide +kernel

/-! ## C57 -/

theorem assignLoop_error {attr : String} {es : List (Elem K)} {vs : List (PyVal K)} {er : Err}
    (h : (assignLoop attr es vs).2 = .error er) :
    ∃ (k : ℕ) (e : Elem K) (v : PyVal K), es[k]? = some e ∧ vs[k]? = some v ∧
      e.setAttr attr v = .error er ∧
      (∀ j, j < k → ∃ (e : Elem K) (v : PyVal K) (e' : Elem K), es[j]? = some e ∧ vs[j]? = some v ∧
        e.setAttr attr v = .ok e' ∧ (assignLoop attr es vs).1[j]? = some e') ∧
      (∀ j, k ≤ j → (assignLoop attr es vs).1[j]? = es[j]?) := by
  induction es generalizing vs with
  | nil => cases vs <;> simp [assignLoop] at h
  | cons e0 es ih =>
    cases vs with
    | nil => simp [assignLoop] at h
    | cons v0 vs =>
      unfold assignLoop at h ⊢
      cases hs : e0.setAttr attr v0 with
      | error er' =>
        rw [hs] at h
        simp only [Except.error.injEq] at h
        subst h
        exact ⟨0, e0, v0, rfl, rfl, hs, fun j hj => absurd hj (by omega), fun j _ => rfl⟩
      | ok e' =>
        rw [hs] at h
        simp only at h ⊢
        obtain ⟨k, e, v, h1, h2, h3, h4, h5⟩ := ih h
        refine ⟨k + 1, e, v, by simpa using h1, by simpa using h2, h3, ?_, ?_⟩
        · intro j hj
          cases j with
          | zero => exact ⟨e0, v0, e', rfl, rfl, hs, rfl⟩
          | succ j => simpa using h4 j (by omega)
        · intro j hj
          cases j with
          | zero => omega
          | succ j => simpa using h5 j (by omega)

/-- The attributes whose setters accept or reject a value independently of the feature. -/
def featureFree (n : String) : Prop :=
  n ∈ ["actionable", "step_direction", "flip_direction", "step_type"]

theorem setAttr_free {e e' : Elem K} {n : String} (hn : featureFree n) {v : PyVal K} {er : Err}
    (h : e.setAttr n v = .error er) : e'.setAttr n v = .error er := by
  unfold featureFree at hn
  simp only [List.mem_cons, List.not_mem_nil, or_false] at hn
  rcases hn with rfl | rfl | rfl | rfl
  all_goals
    unfold Elem.setAttr at h ⊢
    first
    | rw [show attrOf "actionable" = .actionable from by decide] at h ⊢
    | rw [show attrOf "step_direction" = .stepDirection from by decide] at h ⊢
    | rw [show attrOf "flip_direction" = .flipDirection from by decide] at h ⊢
    | rw [show attrOf "step_type" = .stepType from by decide] at h ⊢
    rcases bind_error_iff.mp h with h | ⟨a, -, h⟩
    · simp only [h, error_bind]
    · cases h

/-- **C57** (partial).  A failing `A.attr = v` leaves exactly this state: there is a feature that rejected its
value with the reported error; the features before it have been assigned, it and the later ones are unchanged
(or the value could not be broadcast at all and nothing changed).  It is all or nothing for a scalar and the
attributes `actionable`, `step_direction`, `flip_direction`, `step_type`.  The full property, "a failing
assignment changes nothing", is false (`C57_atomic_refuted`). -/
theorem C57_atomic_partial {A A' : ActionSet K} {attr : String}
    (ha : hasElemAttr attr = true) {v : PyVal K} {er : Err} (h : A.setAttr attr v = (A', .error er)) :
    (A' = A ∨ ∃ (vs : List (PyVal K)) (k : ℕ) (e : Elem K) (u : PyVal K),
      (IsScalar v → ∀ u ∈ vs, u = v) ∧
      (∀ l, (v = .list l ∨ v = .arr l) → l.length = A.names.length → vs = l) ∧
      A.elems[k]? = some e ∧ vs[k]? = some u ∧ e.setAttr attr u = .error er ∧
      (∀ j, j < k → ∃ (e : Elem K) (u : PyVal K) (e' : Elem K), A.elems[j]? = some e ∧
        vs[j]? = some u ∧ e.setAttr attr u = .ok e' ∧ A'.elems[j]? = some e') ∧
      (∀ j, k ≤ j → A'.elems[j]? = A.elems[j]?)) ∧
    A'.names = A.names ∧ A'.cons = A.cons ∧ A'.yDesired = A.yDesired ∧
    (IsScalar v → featureFree attr → A' = A) := by
  unfold ActionSet.setAttr at h
  rw [if_pos ha] at h
  cases hv : expandValues A.names.length v with
  | error er' =>
    rw [hv] at h
    cases h
    exact ⟨Or.inl rfl, rfl, rfl, rfl, fun _ _ => rfl⟩
  | ok vs =>
    rw [hv] at h
    simp only [Prod.mk.injEq] at h
    obtain ⟨rfl, h⟩ := h
    obtain ⟨k, e, u, h1, h2, h3, h4, h5⟩ := assignLoop_error h
    refine ⟨Or.inr ⟨vs, k, e, u, ?_, ?_, h1, h2, h3, h4, h5⟩, rfl, rfl, rfl, ?_⟩
    · intro hs u hu
      have : expandValues A.names.length v = .ok (List.replicate A.names.length v) := by
        cases v <;> first | rfl | exact hs.elim
      rw [this] at hv; cases hv
      exact List.eq_of_mem_replicate hu
    · rintro l hl hlen
      have : expandValues A.names.length v = .ok l := by
        rcases hl with rfl | rfl <;> simp [expandValues, hlen]
      rw [this] at hv; cases hv; rfl
    · intro hs hf
      have hvs : vs = List.replicate A.names.length v := by
        have : expandValues A.names.length v = .ok (List.replicate A.names.length v) := by
          cases v <;> first | rfl | exact hs.elim
        rw [this] at hv; cases hv; rfl
      have hu : ∀ (j : ℕ) (w : PyVal K), vs[j]? = some w → w = v := by
        intro j w hw
        rw [hvs] at hw
        exact List.eq_of_mem_replicate (List.mem_of_getElem? hw)
      have hk : k = 0 := by
        by_contra hk
        obtain ⟨e1, v1, e1', g1, g2, g3, g4⟩ := h4 0 (by omega)
        rw [hu _ _ g2] at g3
        rw [hu _ _ h2] at h3
        rw [setAttr_free hf h3] at g3
        cases g3
      have : (assignLoop attr A.elems vs).1 = A.elems := by
        apply List.ext_getElem?
        intro j; exact h5 j (by omega)
      rw [this]

/-- **C57** refuted: `A.ub = [2, -1]` raises because -1 is below the lower bound of the second feature, but the
first feature has its new bound. -/
theorem C57_atomic_refuted : ∃ A : ActionSet ℚ,
    mkActionSet exX2 ["a", "b"] 1 [] defaultBounds (.str "relative") = .ok A ∧
    A.elems.map (fun e => e.bounds.ub) = [1, 1] ∧
    (A.setAttr "ub" (.list [.int 2, .int (-1)])).2 = .error .assertion ∧
    (A.setAttr "ub" (.list [.int 2, .int (-1)])).1.elems.map (fun e => e.bounds.ub) = [2, 1] := by
  decide +kernel

/-- Non-vacuity of the all-or-nothing part. -/
example : IsScalar (.str "up" : PyVal ℚ) ∧ featureFree "step_type" ∧ ∃ A : ActionSet ℚ,
    mkActionSet exX2 ["a", "b"] 1 [] defaultBounds (.str "relative") = .ok A ∧
    (A.setAttr "step_type" (.str "up")).2 = .error .assertion := by
  unfold IsScalar featureFree; decide +kernel

end Recourse
