import Verif.Lemmas.Elem
import Verif.Props.Constraints

/-!
# Invariants of action sets
-/

set_option linter.unusedSectionVars false

namespace Recourse

variable {K : Type} [Field K] [LinearOrder K] [IsStrictOrderedRing K] [FloorRing K]

theorem attrOf_flip : attrOf "flip_direction" = .flipDirection := by decide

theorem sgn_intCast (f : Int) : sgn (f : K) = Int.sign f := by
  rcases lt_trichotomy f 0 with h | h | h
  · rw [sgn_neg (by exact_mod_cast h), Int.sign_eq_neg_one_of_neg h]
  · simp [h]
  · rw [sgn_pos (by exact_mod_cast h), Int.sign_eq_one_of_pos h]

theorem setFlip_eq (e : Elem K) (f : Int) :
    e.setAttr "flip_direction" (.int f) = .ok (e.setFlip f) := by
  unfold Elem.setAttr
  rw [attrOf_flip]
  simp [scalarNum, Elem.setFlip, sgn_intCast]

theorem Elem.Reachable.setFlip {ext : Ext K} {e : Elem K} (h : e.Reachable ext) (f : Int) :
    (e.setFlip f).Reachable ext := .set h (setFlip_eq e f)

/-- The invariants of an action set. -/
structure ActionSet.WF (ext : Ext K) (A : ActionSet K) : Prop where
  names : A.elems.map (·.name) = A.names
  distinct : A.names.Nodup
  y : A.yDesired = 1 ∨ A.yDesired = -1
  elems : ∀ e ∈ A.elems, e.Reachable ext
  consNames : A.cons.names = A.names
  cons : ∀ k ∈ A.cons.items, k.WF A.names

theorem ActionSet.WF.length {ext : Ext K} {A : ActionSet K} (h : A.WF ext) :
    A.elems.length = A.names.length := by rw [← h.names]; simp

/-- Replacing the list of features by an equally named list of reachable ones. -/
theorem ActionSet.WF.withElems {ext : Ext K} {A : ActionSet K} (h : A.WF ext) {es : List (Elem K)}
    (hn : es.map (·.name) = A.elems.map (·.name)) (he : ∀ e ∈ es, e.Reachable ext) :
    ActionSet.WF ext { A with elems := es } :=
  ⟨hn.trans h.names, h.distinct, h.y, he, h.consNames, h.cons⟩

theorem mem_set_of {α : Type} {l : List α} {j : ℕ} {a b : α} (h : b ∈ l.set j a) : b = a ∨ b ∈ l := by
  rcases List.mem_or_eq_of_mem_set h with h | h
  · exact Or.inr h
  · exact Or.inl h

theorem map_name_set {l : List (Elem K)} {j : ℕ} {e e' : Elem K} (hj : l[j]? = some e)
    (hn : e'.name = e.name) : (l.set j e').map (·.name) = l.map (·.name) := by
  rw [List.map_set]
  apply List.ext_getElem?
  intro i
  rw [List.getElem?_set]
  split_ifs with h1 h2
  · subst h1
    simp [hj, hn]
  · subst h1
    simp at h2
    simp [h2]
  · rfl

theorem ActionSet.WF.set {ext : Ext K} {A : ActionSet K} (h : A.WF ext) {j : ℕ} {e e' : Elem K}
    (hj : A.elems[j]? = some e) (hn : e'.name = e.name) (he : e'.Reachable ext) :
    ActionSet.WF ext { A with elems := A.elems.set j e' } := by
  refine h.withElems (map_name_set hj hn) ?_
  intro b hb
  rcases mem_set_of hb with rfl | hb
  · exact he
  · exact h.elems b hb

theorem assignLoop_inv {ext : Ext K} {attr : String} {es : List (Elem K)} {vs : List (PyVal K)}
    (he : ∀ e ∈ es, e.Reachable ext) :
    (assignLoop attr es vs).1.map (·.name) = es.map (·.name) ∧
      ∀ e ∈ (assignLoop attr es vs).1, e.Reachable ext := by
  induction es generalizing vs with
  | nil => cases vs <;> simp [assignLoop]
  | cons e es ih =>
    cases vs with
    | nil => exact ⟨rfl, he⟩
    | cons v vs =>
      unfold assignLoop
      cases h : e.setAttr attr v with
      | error er => exact ⟨rfl, he⟩
      | ok e' =>
        obtain ⟨i1, i2⟩ := ih (vs := vs) fun e' h' => he e' (List.mem_cons_of_mem _ h')
        refine ⟨by simp [i1, (setAttr_grid h).2.2.2], ?_⟩
        intro a ha
        rcases List.mem_cons.mp ha with rfl | ha
        · exact .set (he e List.mem_cons_self) h
        · exact i2 a ha

theorem sliceLoop_inv {ext : Ext K} {attr : String} {vs : List (PyVal K)} (ents : List (ℕ × ℕ))
    {es : List (Elem K)} (he : ∀ e ∈ es, e.Reachable ext) :
    (sliceLoop attr vs ents es).1.map (·.name) = es.map (·.name) ∧
      ∀ e ∈ (sliceLoop attr vs ents es).1, e.Reachable ext := by
  induction ents generalizing es with
  | nil => exact ⟨rfl, he⟩
  | cons p rest ih =>
    obtain ⟨p, j⟩ := p
    unfold sliceLoop
    split
    · rename_i e v h1 h2
      split
      · rename_i e' h3
        have hmem : e ∈ es := List.mem_of_getElem? h1
        obtain ⟨i1, i2⟩ := ih (es := es.set p e') (by
          intro b hb
          rcases mem_set_of hb with rfl | hb
          · exact .set (he e hmem) h3
          · exact he b hb)
        exact ⟨i1.trans (map_name_set h1 (setAttr_grid h3).2.2.2), i2⟩
      · exact ⟨rfl, he⟩
    · exact ⟨rfl, he⟩

theorem mkColumn_spec {X : List (List K)} {custom : List (String × PyVal K)} {dflt st : PyVal K}
    {j : ℕ} {n : String} {e : Elem K} (h : mkColumn X custom dflt st j n = .ok e) :
    ∃ bounds vt st' ss, mkElem n (column X j) bounds vt true st' 0 ss = .ok e := by
  unfold mkColumn at h
  simp only at h
  split at h <;> exact ⟨_, _, _, _, h⟩

theorem zipIdx_map_fst {α : Type} (l : List α) : l.zipIdx.map (·.1) = l := by simp

theorem mkActionSet_spec {X : List (List K)} {names : List String} {y : Int}
    {custom : List (String × PyVal K)} {dflt st : PyVal K} {A : ActionSet K}
    (h : mkActionSet X names y custom dflt st = .ok A) :
    checkVariableNames names = true ∧ 1 ≤ X.length ∧ (∀ r ∈ X, r.length = names.length) ∧
    (names.zipIdx.mapM fun (p : String × ℕ) => mkColumn X custom dflt st p.2 p.1) = .ok A.elems ∧
    (y = -1 ∨ y = 0 ∨ y = 1) ∧ A.names = names ∧ A.cons = Constraints.init names ∧
    A.yDesired = (if 0 < y then 1 else -1) := by
  unfold mkActionSet at h
  simp only [bind_ok_iff, pyAssert_ok_iff, decide_eq_true_eq] at h
  obtain ⟨_, h1, _, h2, _, h3, es, h4, _, h5, h⟩ := h
  cases h
  refine ⟨h1, h2, ?_, h4, h5, rfl, rfl, rfl⟩
  simpa using h3

theorem Forall2_map_eq {α β γ : Type} {R : α → β → Prop} {f : α → γ} {g : β → γ} {l : List α}
    {r : List β} (h : List.Forall₂ R l r) (hR : ∀ a b, R a b → g b = f a) : r.map g = l.map f := by
  induction h with
  | nil => rfl
  | cons h1 _ ih => simp [hR _ _ h1, ih]

theorem setAlignment_ok {A A' : ActionSet K} {w : List K} (h : A.setAlignment w = .ok A') :
    w.length = A.names.length ∧ A' = { A with
      elems := List.zipWith Elem.setFlip A.elems (w.map fun c => if 0 < A.yDesired then sgn c else -(sgn c)) } := by
  unfold ActionSet.setAlignment at h
  simp only [bind_ok_iff, pyAssert_ok_iff, decide_eq_true_eq] at h
  obtain ⟨_, h1, h⟩ := h
  cases h
  exact ⟨h1, rfl⟩

theorem setYDesired_ok {A A' : ActionSet K} {y : Int} (h : A.setYDesired y = .ok A') :
    (y = -1 ∨ y = 0 ∨ y = 1) ∧
    ((y = A.yDesired ∧ A' = A) ∨
     (y ≠ A.yDesired ∧ A.alignmentKnown = true ∧ A' = { A with
        yDesired := if 0 < y then 1 else -1
        elems := A.elems.map fun e => e.setFlip (-(e.flip.getD 0)) }) ∨
     (y ≠ A.yDesired ∧ A.alignmentKnown = false ∧ A' = { A with yDesired := if 0 < y then 1 else -1 })) := by
  unfold ActionSet.setYDesired at h
  simp only [bind_ok_iff, pyAssert_ok_iff, decide_eq_true_eq] at h
  obtain ⟨_, h1, h⟩ := h
  refine ⟨h1, ?_⟩
  by_cases hy : y = A.yDesired
  · rw [if_neg (not_not.mpr hy)] at h
    cases h; exact Or.inl ⟨hy, rfl⟩
  · rw [if_pos hy] at h
    right
    change (if A.alignmentKnown = true then _ else _) = _ at h
    by_cases ha : A.alignmentKnown = true
    · rw [if_pos ha] at h
      cases h; exact Or.inl ⟨hy, ha, rfl⟩
    · rw [if_neg ha] at h
      cases h; exact Or.inr ⟨hy, by simpa using ha, rfl⟩

theorem setYDesired_wf {ext : Ext K} {A A' : ActionSet K} {y : Int} (ih : A.WF ext)
    (h : A.setYDesired y = .ok A') : A'.WF ext := by
  have hw : ActionSet.WF ext { A with yDesired := if 0 < y then 1 else -1 } :=
    ⟨ih.names, ih.distinct, by dsimp only; split_ifs <;> simp, ih.elems, ih.consNames, ih.cons⟩
  obtain ⟨-, ⟨-, rfl⟩ | ⟨-, -, rfl⟩ | ⟨-, -, rfl⟩⟩ := setYDesired_ok h
  · exact ih
  · refine hw.withElems (es := A.elems.map fun e => e.setFlip (-(e.flip.getD 0)))
      (by simp [Elem.setFlip]) ?_
    intro e he
    obtain ⟨e0, h0, rfl⟩ := List.mem_map.mp he
    exact (ih.elems e0 h0).setFlip _
  · exact hw

theorem ActionSet.Reachable.wf {ext : Ext K} {A : ActionSet K} (h : A.Reachable ext) : A.WF ext := by
  induction h with
  | @mk X names y custom dflt st A h =>
    obtain ⟨h1, -, -, h4, -, hn, hc, hy⟩ := mkActionSet_spec h
    have hf := mapM_ok_iff.mp h4
    have hnames : A.elems.map (·.name) = names := by
      have := Forall2_map_eq (f := fun p : String × ℕ => p.1) (g := fun e : Elem K => e.name) hf (by
        rintro ⟨n, j⟩ e he
        obtain ⟨_, _, _, _, hm⟩ := mkColumn_spec he
        exact (mkElem_spec hm).2.2.2.1)
      rw [this, zipIdx_map_fst]
    simp only [checkVariableNames, Bool.and_eq_true, decide_eq_true_eq] at h1
    refine ⟨by rw [hnames, hn], by rw [hn]; exact h1.2, ?_, ?_, by rw [hc, hn]; rfl, ?_⟩
    · rw [hy]; split_ifs <;> simp
    · intro e he
      obtain ⟨p, -, hp⟩ := mapM_ok_mem h4 he
      obtain ⟨_, _, _, _, hm⟩ := mkColumn_spec hp
      exact .mk hm
    · rw [hc]; simp [Constraints.init]
  | align hr h ih =>
    obtain ⟨h1, rfl⟩ := setAlignment_ok h
    refine ih.withElems ?_ ?_
    · have hl := ih.length
      rw [List.map_zipWith]
      apply List.ext_getElem
      · simp [hl, h1]
      · intro i hi1 hi2; simp [Elem.setFlip]
    · intro e he
      rw [List.mem_iff_getElem] at he
      obtain ⟨i, hi, rfl⟩ := he
      rw [List.getElem_zipWith]
      exact (ih.elems _ (List.getElem_mem _)).setFlip _
  | setY hr h ih => exact setYDesired_wf ih h
  | @addC A A' names lb ub id i hr h ih =>
    unfold ActionSet.addConstraint at h
    obtain ⟨⟨c, j⟩, hc, h⟩ := bind_ok_iff.mp h
    cases h
    have hn : c.names = A.names := by
      rw [← ih.consNames]; exact (add_ok hc).2.2.2.2.2.2.2.2.1
    refine ⟨ih.names, ih.distinct, ih.y, ih.elems, hn, ?_⟩
    have := add_wf hc (by rw [ih.consNames]; exact ih.cons)
    rwa [hn] at this
  | remC hr h ih =>
    unfold ActionSet.removeConstraint at h
    obtain ⟨c, hc, h⟩ := bind_ok_iff.mp h
    cases h
    obtain ⟨-, rfl⟩ := remove_ok hc
    exact ⟨ih.names, ih.distinct, ih.y, ih.elems, ih.consNames,
      fun k hk => ih.cons k (List.mem_filter.mp hk).1⟩
  | @setAttr A attr v hr ih =>
    unfold ActionSet.setAttr
    split_ifs
    · split
      · exact ih
      · obtain ⟨i1, i2⟩ := assignLoop_inv (attr := attr) (vs := ‹_›) ih.elems
        exact ih.withElems i1 i2
    · split
      · split
        · exact setYDesired_wf ih ‹_›
        · exact ih
      · exact ih
    · split
      · exact ⟨ih.names, ih.distinct, ih.y, ih.elems, ih.consNames, ih.cons⟩
      · exact ih
  | @setSlice A idx attr v hr ih =>
    unfold ActionSet.setSliceAttr
    split
    · exact ih
    · split_ifs
      · simp only
        split
        · exact ih
        · obtain ⟨i1, i2⟩ := sliceLoop_inv (attr := attr) (vs := ‹_›) (sliceEntries ‹_›) ih.elems
          exact ih.withElems i1 i2
      · exact ih
  | @setElem A n attr v hr ih =>
    unfold ActionSet.setElemAttr
    split
    · exact ih
    · rename_i e he
      split
      · rename_i e' h'
        unfold ActionSet.elem? at he
        split_ifs at he with hm
        exact ih.set he (setAttr_grid h').2.2.2 (.set (ih.elems e (List.mem_of_getElem? he)) h')
      · exact ih
  | updateGrid hr hj h ih =>
    have hn : ∀ {e e' : Elem K}, e.updateGrid = .ok e' → e'.name = e.name := by
      intro e e' h
      unfold Elem.updateGrid at h
      obtain ⟨g, -, h⟩ := bind_ok_iff.mp h
      cases h; rfl
    exact ih.set hj (hn h) (.update (ih.elems _ (List.mem_of_getElem? hj)) h)
  | percentile hr hj ih =>
    obtain ⟨c, hc⟩ := fillCache_eq ext _
    exact ih.set hj (by rw [hc]) (.touch (ih.elems _ (List.mem_of_getElem? hj)))
  | interp hr hj h ih =>
    have hn := updateInterpolator_eq h
    exact ih.set hj (by obtain ⟨c, rfl⟩ := hn; rfl) (.interp (ih.elems _ (List.mem_of_getElem? hj)) h)
  | @touch A rc hr ih =>
    unfold ActionSet.touch
    have hnm : ∀ e : Elem K, (e.fillCache ext).name = e.name := by
      intro e; obtain ⟨c, hc⟩ := fillCache_eq ext e; rw [hc]
    refine ih.withElems ?_ ?_
    · have hl := ih.length
      apply List.ext_getElem
      · simp [hl]
      · intro i h1 h2
        simp only [List.map_map, List.getElem_map, Function.comp, List.getElem_zip]
        split_ifs
        · exact hnm _
        · rfl
    · intro e he
      obtain ⟨p, hp, rfl⟩ := List.mem_map.mp he
      have := ih.elems p.2 (List.of_mem_zip hp).2
      split_ifs
      · exact .touch this
      · exact this
  | @setItem A n e hr he hn ih =>
    unfold ActionSet.setItem
    dsimp only
    split_ifs with hm
    · have hj : A.names.idxOf n < A.elems.length := by rw [ih.length]; exact List.idxOf_lt_length_of_mem hm
      refine ih.set (List.getElem?_eq_getElem hj) ?_ he
      have hl := congrArg (fun l => l[A.names.idxOf n]?) ih.names
      rw [List.getElem?_map, List.getElem?_eq_getElem hj, List.getElem?_eq_getElem (List.idxOf_lt_length_of_mem hm),
        List.getElem_idxOf] at hl
      rw [hn]
      exact (Option.some.inj hl).symm
    · exact ih

/-- Lookup of a feature of a well-formed set. -/
theorem ActionSet.WF.elem_name {ext : Ext K} {A : ActionSet K} (h : A.WF ext) {j : ℕ} {e : Elem K}
    (hj : A.elems[j]? = some e) : A.names[j]? = some e.name := by
  rw [← h.names, List.getElem?_map, hj]; rfl

end Recourse
