import Verif.Lemmas.Audit

/-!
# Action sets that offer the same actions at the same costs
-/

set_option linter.unusedSectionVars false

namespace Recourse

variable {K : Type} [Field K] [LinearOrder K] [IsStrictOrderedRing K] [FloorRing K] {ext : Ext K}

/-- The parts of a feature that decide which values it may take and what they cost. -/
structure Elem.Same (ext : Ext K) (e e' : Elem K) : Prop where
  grid : e'.grid = e.grid
  actionable : e'.actionable = e.actionable
  stepDir : e'.stepDir = e.stepDir
  table : e'.table ext = e.table ext
  name : e'.name = e.name

theorem Elem.Same.refl (e : Elem K) : Elem.Same ext e e := ⟨rfl, rfl, rfl, rfl, rfl⟩

theorem Elem.Same.trans {e e' e'' : Elem K} (h : Elem.Same ext e e') (h' : Elem.Same ext e' e'') :
    Elem.Same ext e e'' :=
  ⟨h'.grid.trans h.grid, h'.actionable.trans h.actionable, h'.stepDir.trans h.stepDir, h'.table.trans h.table, h'.name.trans h.name⟩

theorem Elem.Same.permitted {e e' : Elem K} (h : Elem.Same ext e e') (x v : K) :
    Permitted e' x v ↔ Permitted e x v := by
  unfold Permitted
  rw [h.grid, h.actionable, h.stepDir]

theorem Elem.Same.moveCost {e e' : Elem K} (h : Elem.Same ext e e') (ct : CostType) (x v c : K) :
    MoveCost ext ct e' x v c ↔ MoveCost ext ct e x v c := by
  unfold MoveCost Elem.percentile
  rw [h.table]

/-- Same desired outcome, same features as far as actions and costs are concerned. -/
structure SameOffers (ext : Ext K) (A A' : ActionSet K) : Prop where
  y : A'.yDesired = A.yDesired
  cons : A'.cons = A.cons
  names : A'.names = A.names
  elems : List.Forall₂ (Elem.Same ext) A.elems A'.elems

theorem SameOffers.refl (A : ActionSet K) : SameOffers ext A A :=
  ⟨rfl, rfl, rfl, List.forall₂_same.mpr fun e _ => Elem.Same.refl e⟩

theorem forall₂_trans {α : Type} {R : α → α → Prop} (hR : ∀ a b c, R a b → R b c → R a c) :
    ∀ {l l' l'' : List α}, List.Forall₂ R l l' → List.Forall₂ R l' l'' → List.Forall₂ R l l''
  | _, _, _, .nil, .nil => .nil
  | _, _, _, .cons h t, .cons h' t' => .cons (hR _ _ _ h h') (forall₂_trans hR t t')

theorem SameOffers.trans {A A' A'' : ActionSet K} (h : SameOffers ext A A') (h' : SameOffers ext A' A'') :
    SameOffers ext A A'' :=
  ⟨h'.y.trans h.y, h'.cons.trans h.cons, h'.names.trans h.names,
    forall₂_trans (fun _ _ _ => Elem.Same.trans) h.elems h'.elems⟩

theorem SameOffers.getElem? {A A' : ActionSet K} (h : SameOffers ext A A') {j : ℕ} {e : Elem K}
    (he : A.elems[j]? = some e) : ∃ e', A'.elems[j]? = some e' ∧ Elem.Same ext e e' := by
  obtain ⟨hj, rfl⟩ := List.getElem?_eq_some_iff.mp he
  have hj' : j < A'.elems.length := by rw [← h.elems.length_eq]; exact hj
  exact ⟨_, List.getElem?_eq_getElem hj', h.elems.get hj hj'⟩

theorem SameOffers.getElem?' {A A' : ActionSet K} (h : SameOffers ext A A') {j : ℕ} {e' : Elem K}
    (he : A'.elems[j]? = some e') : ∃ e, A.elems[j]? = some e ∧ Elem.Same ext e e' := by
  obtain ⟨hj, rfl⟩ := List.getElem?_eq_some_iff.mp he
  have hj' : j < A.elems.length := by rw [h.elems.length_eq]; exact hj
  exact ⟨_, List.getElem?_eq_getElem hj', h.elems.get hj' hj⟩

theorem SameOffers.permittedAction {A A' : ActionSet K} (h : SameOffers ext A A') {x a : List K} :
    PermittedAction A' x a ↔ PermittedAction A x a := by
  constructor
  · rintro ⟨h1, h2⟩
    refine ⟨h1, fun j e xj aj he hx ha => ?_⟩
    obtain ⟨e', he', hs⟩ := h.getElem? he
    exact (hs.permitted _ _).mp (h2 j e' xj aj he' hx ha)
  · rintro ⟨h1, h2⟩
    refine ⟨h1, fun j e' xj aj he hx ha => ?_⟩
    obtain ⟨e, he', hs⟩ := h.getElem?' he
    exact (hs.permitted _ _).mpr (h2 j e xj aj he' hx ha)

theorem SameOffers.isRecourse {A A' : ActionSet K} (h : SameOffers ext A A') {w x a : List K} {t : K} {lo hi : ℕ} :
    IsRecourse A' w t x a lo hi ↔ IsRecourse A w t x a lo hi := by
  constructor
  · rintro ⟨h1, h2, h3, h4⟩; exact ⟨h.permittedAction.mp h1, h2, h3, by rw [← h.y]; exact h4⟩
  · rintro ⟨h1, h2, h3, h4⟩; exact ⟨h.permittedAction.mpr h1, h2, h3, by rw [h.y]; exact h4⟩

theorem SameOffers.isLimited {A A' : ActionSet K} (h : SameOffers ext A A') {w x a : List K} {t : K} {lo hi : ℕ} :
    IsLimitedRecourse A' w t x a lo hi ↔ IsLimitedRecourse A w t x a lo hi := by
  have hl : RespectsLimits A' x a ↔ RespectsLimits A x a := by
    unfold RespectsLimits numNonzero; rw [h.cons, h.names]
  exact ⟨fun g => ⟨h.isRecourse.mp g.toIsRecourse, hl.mp g.limits⟩,
    fun g => ⟨h.isRecourse.mpr g.toIsRecourse, hl.mpr g.limits⟩⟩

theorem SameOffers.actionCosts {A A' : ActionSet K} (h : SameOffers ext A A') {ct : CostType} {x a cs : List K} :
    ActionCosts ext ct A' x a cs ↔ ActionCosts ext ct A x a cs := by
  constructor
  · rintro ⟨h1, h2⟩
    refine ⟨h1, fun j e xj aj c he hx ha hc => ?_⟩
    obtain ⟨e', he', hs⟩ := h.getElem? he
    exact (h2 j e' xj aj c he' hx ha hc).imp_right fun g hne => (hs.moveCost _ _ _ _).mp (g hne)
  · rintro ⟨h1, h2⟩
    refine ⟨h1, fun j e' xj aj c he hx ha hc => ?_⟩
    obtain ⟨e, he', hs⟩ := h.getElem?' he
    exact (h2 j e xj aj c he' hx ha hc).imp_right fun g hne => (hs.moveCost _ _ _ _).mpr (g hne)

theorem SameOffers.numActionable {A A' : ActionSet K} (h : SameOffers ext A A') :
    numActionable A' = numActionable A := by
  unfold Recourse.numActionable
  have : ∀ l l' : List (Elem K), List.Forall₂ (Elem.Same ext) l l' →
      l'.countP (fun e => e.actionable) = l.countP (fun e => e.actionable) := by
    intro l l' h
    induction h with
    | nil => rfl
    | cons h _ ih => rw [List.countP_cons, List.countP_cons, ih, h.actionable]
  exact this _ _ h.elems

theorem SameOffers.align {A A' : ActionSet K} {w : List K} (hA : A.names.length = A.elems.length)
    (h : A.setAlignment w = .ok A') : SameOffers ext A A' := by
  obtain ⟨hl, rfl⟩ := setAlignment_ok h
  refine ⟨rfl, rfl, rfl, ?_⟩
  dsimp only
  have key : ∀ (l : List (Elem K)) (fl : List Int), fl.length = l.length →
      List.Forall₂ (Elem.Same ext) l (List.zipWith Elem.setFlip l fl) := by
    intro l
    induction l with
    | nil => intro fl _; simp
    | cons e l ih =>
      intro fl hfl
      cases fl with
      | nil => simp at hfl
      | cons f fl => exact .cons ⟨rfl, rfl, rfl, rfl, rfl⟩ (ih fl (by simpa using hfl))
  exact key _ _ (by rw [List.length_map, hl, hA])

theorem Elem.Same.fill (e : Elem K) : Elem.Same ext e (e.fillCache ext) := by
  obtain ⟨c, hc⟩ := fillCache_eq ext e
  exact ⟨by rw [hc], by rw [hc], by rw [hc], fillCache_table ext e, by rw [hc]⟩

theorem SameOffers.touch {A : ActionSet K} (hA : A.names.length = A.elems.length) (rc : Bool) :
    SameOffers ext A (A.touch ext rc) := by
  refine ⟨rfl, rfl, rfl, ?_⟩
  unfold ActionSet.touch
  dsimp only
  have key : ∀ (p : String × Elem K → Bool) (ns : List String) (l : List (Elem K)), ns.length = l.length →
      List.Forall₂ (Elem.Same ext) l ((ns.zip l).map fun q => if p q = true then q.2.fillCache ext else q.2) := by
    intro p ns
    induction ns with
    | nil => intro l hl; simp at hl; rw [List.length_eq_zero_iff.mp hl.symm]; simp
    | cons n ns ih =>
      intro l hl
      cases l with
      | nil => simp at hl
      | cons e l =>
        rw [List.zip_cons_cons, List.map_cons]
        refine .cons ?_ (ih l (by simpa using hl))
        dsimp only
        split_ifs
        · exact Elem.Same.fill e
        · exact Elem.Same.refl e
  exact key (fun p => (!rc || p.2.compatTruthy) || decide (p.1 ∈ A.cons.flatNames)) _ _ hA

theorem SameOffers.visit (js : List ℕ) (A : ActionSet K) : SameOffers ext A (A.visit ext js) := by
  induction js generalizing A with
  | nil => exact .refl A
  | cons j js ih =>
    unfold ActionSet.visit
    cases he : A.elems[j]? with
    | none => exact .refl A
    | some e =>
      dsimp only
      split_ifs with hc
      · refine SameOffers.trans (A' := { A with elems := A.elems.set j (e.fillCache ext) })
          ⟨rfl, rfl, rfl, ?_⟩ (ih _)
        dsimp only
        rw [List.forall₂_iff_get]
        refine ⟨by simp, fun k h1 h2 => ?_⟩
        simp only [List.get_eq_getElem, List.getElem_set]
        split_ifs with hk
        · subst hk
          obtain ⟨hl, hg⟩ := List.getElem?_eq_some_iff.mp he
          rw [hg]; exact Elem.Same.fill e
        · exact Elem.Same.refl _
      · exact .refl A

/-- A new builder. -/
theorem mkBuilder_offers_any {be : Backend} {ct : CostType} {A : ActionSet K} {w : List K} {t : K} {b : Builder K}
    (hlen : A.names.length = A.elems.length) (h : mkBuilder be ct A w t = .ok b) : SameOffers ext A b.aset ∧ b.coefs = w ∧
    b.intercept = t ∧ b.costType = ct ∧ b.backend = be ∧ b.minItems = 0 ∧ b.maxItems = numActionable A := by
  have hso : SameOffers ext A b.aset ∧ b.maxItems = ((List.range b.aset.elems.length).filter fun j =>
      match b.aset.elems[j]? with | some e => e.actionable | none => false).length ∧ b.coefs = w ∧
      b.intercept = t ∧ b.costType = ct ∧ b.backend = be ∧ b.minItems = 0 := by
    unfold mkBuilder at h
    obtain ⟨-, -, h⟩ := bind_ok_iff.mp h
    dsimp only at h
    by_cases hk : A.alignmentKnown = true
    · rw [if_pos hk] at h
      cases h
      exact ⟨SameOffers.refl A, rfl, rfl, rfl, rfl, rfl, rfl⟩
    · rw [if_neg hk] at h
      obtain ⟨A', hA', h'⟩ := bind_ok_iff.mp h
      cases h'
      exact ⟨SameOffers.align hlen hA', rfl, rfl, rfl, rfl, rfl, rfl⟩
  obtain ⟨h1, h2, h3, h4, h5, h6, h7⟩ := hso
  refine ⟨h1, h3, h4, h5, h6, h7, ?_⟩
  rw [h2, ← h1.numActionable]
  unfold Recourse.numActionable
  rw [← List.countP_eq_length_filter]
  generalize b.aset.elems = l
  have hl : l = (List.range l.length).filterMap fun j => l[j]? := by
    clear h2
    induction l using List.reverseRecOn with
    | nil => rfl
    | append_singleton l e ih =>
      rw [List.length_append, List.length_singleton, List.range_succ, List.filterMap_append]
      have : (List.range l.length).filterMap (fun j => (l ++ [e])[j]?) = (List.range l.length).filterMap fun j => l[j]? := by
        apply List.filterMap_congr
        intro j hj
        rw [List.mem_range] at hj
        exact List.getElem?_append_left hj
      rw [this, ← ih]
      simp
  conv_rhs => rw [hl]
  rw [List.countP_filterMap]
  apply List.countP_congr
  intro j _
  cases l[j]? <;> simp

/-- A new builder, for action sets of the API. -/
theorem mkBuilder_offers {be : Backend} {ct : CostType} {A : ActionSet K} {w : List K} {t : K} {b : Builder K}
    (hA : A.Reachable ext) (h : mkBuilder be ct A w t = .ok b) : SameOffers ext A b.aset ∧ b.coefs = w ∧
    b.intercept = t ∧ b.costType = ct ∧ b.backend = be ∧ b.minItems = 0 ∧ b.maxItems = numActionable A :=
  mkBuilder_offers_any (by rw [← hA.wf.names, List.length_map]) h

end Recourse
