import Verif.Model.SelfCheck
import Verif.Lemmas.Regular
import Verif.Lemmas.Compare
import Verif.Props.Fit
import Verif.Props.Replace

/-!
# C87: the builder's own check of the answers of `fit`
-/

set_option linter.unusedSectionVars false

namespace Recourse

variable {K : Type} [Field K] [LinearOrder K] [IsStrictOrderedRing K] [FloorRing K]

variable {ext : Ext K} {o : Oracle K} {b0 b1 b b' : Builder K} {x : List K} {i : Info K}

/-- What stays fixed along fits, enumerations and changes of the action set. -/
structure SamePoint (b b' : Builder K) : Prop where
  coefs : b'.coefs = b.coefs
  costType : b'.costType = b.costType
  intercept : b'.intercept = b.intercept
  minItems : b'.minItems = b.minItems
  maxItems : b'.maxItems = b.maxItems
  actionableIdx : b'.actionableIdx = b.actionableIdx
  x : b'.x = b.x

theorem SameFixed.point (h : SameFixed b b') : SamePoint b b' :=
  ⟨h.coefs, h.costType, h.intercept, h.minItems, h.maxItems, h.actionableIdx, h.x⟩

theorem SamePoint.trans {c : Builder K} (h : SamePoint b b') (g : SamePoint b' c) : SamePoint b c :=
  ⟨g.1.trans h.1, g.2.trans h.2, g.3.trans h.3, g.4.trans h.4, g.5.trans h.5, g.6.trans h.6, g.7.trans h.7⟩

theorem Builder.After.point (h : b1.After o b) : SamePoint b1 b := by
  induction h with
  | refl => exact (SameFixed.refl _).point
  | fit hr hf ih =>
    obtain ⟨-, rfl, -⟩ := fit_ok hf
    exact ih.trans (SameFixed.solve _ _).point
  | populate hr hp ih =>
    obtain ⟨-, -, hl⟩ := populate_ok hp
    exact ih.trans (SameFixed.popLoop hl).point
  | user A hr ih => exact ih.trans ⟨rfl, rfl, rfl, rfl, rfl, rfl, rfl⟩

/-- The changes of a choice are not close to 0. -/
theorem choice_far (hso : SetOrderOk ext) (hb : BuilderOK ext b) {feats : List (Feat K)} {κ : ℕ → ℕ}
    (h : b.buildInfo ext x = .ok feats) (hκ : Choice feats κ) {j : ℕ} {aj : K}
    (ha : (actVec b.coefs.length feats κ)[j]? = some aj) (h0 : aj ≠ 0) : isClose aj 0 = false := by
  obtain ⟨-, -, hspec, -⟩ := buildInfo_spec hso hb h
  have hok := buildInfo_ok hso hb h
  have hj : j < b.coefs.length := by
    rw [← actVec_length b.coefs.length feats κ]; exact (List.getElem?_eq_some_iff.mp ha).1
  by_cases hf : ∃ f ∈ feats, f.idx = j
  · obtain ⟨f, hf, rfl⟩ := hf
    obtain ⟨e, xj, t, T, hs⟩ := hspec f hf
    have h3 := put_feat hok (fun f => f.act κ) hf
    change (actVec b.coefs.length feats κ)[f.idx]? = _ at h3
    rw [ha] at h3; cases h3
    have hk : κ f.idx ≠ 0 := fun hh => h0 ((hok.act_zero hf hκ).mpr hh)
    obtain ⟨v, -, -, -, hbug, hv, -⟩ := hs.offered hb (Nat.pos_of_ne_zero hk) (hκ f hf)
    have := (isBug_false hbug).2
    unfold Feat.act
    rw [hv]; exact this
  · push Not at hf
    have h3 := put_other (n := b.coefs.length) (fun f : Feat K => f.act κ) hj hf
    change (actVec b.coefs.length feats κ)[j]? = _ at h3
    rw [ha] at h3; cases h3
    exact absurd rfl h0

theorem closeTol_zero (r r' a : K) : isCloseTol r (1 / 10 ^ 8) a 0 = isCloseTol r' (1 / 10 ^ 8) a 0 := by
  unfold isCloseTol; simp

theorem isClose_self (a : K) : isClose a a = true := by
  unfold isClose isCloseTol
  simp only [sub_self, abs_zero, decide_eq_true_eq]
  positivity

/-- On vectors without tiny changes, `action_idx` are the changed features. -/
theorem mem_changedIdx {a : List K} (h : ∀ (j : ℕ) (aj : K), a[j]? = some aj → aj ≠ 0 → isClose aj 0 = false) (j : ℕ) :
    j ∈ changedIdx a ↔ ∃ aj, a[j]? = some aj ∧ aj ≠ 0 := by
  unfold changedIdx
  rw [List.mem_filter, List.mem_range]
  constructor
  · rintro ⟨hj, hc⟩
    refine ⟨a[j], List.getElem?_eq_getElem hj, fun h0 => ?_⟩
    rw [List.getD_eq_getElem _ _ hj, h0, closeTol_zero _ (1 / 10 ^ 5)] at hc
    have := isClose_self (0 : K)
    unfold isClose at this
    rw [this] at hc; cases hc
  · rintro ⟨aj, hj, h0⟩
    have hl := (List.getElem?_eq_some_iff.mp hj).1
    refine ⟨hl, ?_⟩
    have := h j aj hj h0
    unfold isClose at this
    rw [List.getD_eq_getElem?_getD, hj, Option.getD_some, closeTol_zero _ (1 / 10 ^ 5), this]
    rfl

theorem mem_staticIdx {a : List K} (h : ∀ (j : ℕ) (aj : K), a[j]? = some aj → aj ≠ 0 → isClose aj 0 = false) {j : ℕ}
    (hm : j ∈ staticIdx a) : a[j]? = some 0 := by
  unfold staticIdx at hm
  rw [List.mem_filter, List.mem_range] at hm
  obtain ⟨hj, hc⟩ := hm
  rw [List.getD_eq_getElem _ _ hj, closeTol_zero _ (1 / 10 ^ 5)] at hc
  rw [List.getElem?_eq_getElem hj]
  by_contra hne
  have := h j a[j] (List.getElem?_eq_getElem hj) (fun h0 => hne (by rw [h0]))
  unfold isClose at this
  rw [this] at hc; cases hc

theorem countP_range (a : List K) (p : K → Bool) :
    ((List.range a.length).filter fun j => p (a.getD j 0)).length = a.countP p := by
  rw [← List.countP_eq_length_filter]
  have e : a = (List.range a.length).map fun j => a.getD j 0 := by
    apply List.ext_getElem (by simp)
    intro n h1 h2
    simp [List.getElem?_eq_getElem h1]
  conv_rhs => rw [e]
  rw [List.countP_map]
  rfl

theorem changedIdx_length {a : List K}
    (h : ∀ (j : ℕ) (aj : K), a[j]? = some aj → aj ≠ 0 → isClose aj 0 = false) :
    (changedIdx a).length = numChanged a := by
  unfold changedIdx numChanged
  rw [countP_range a fun v => !isCloseTol (1 / 10 ^ 4) (1 / 10 ^ 8) v 0]
  apply List.countP_congr
  intro v hv
  obtain ⟨j, hj⟩ := List.mem_iff_getElem?.mp hv
  rw [closeTol_zero _ (1 / 10 ^ 5)]
  change (!isClose v 0) = true ↔ _
  by_cases h0 : v = 0
  · subst h0; rw [isClose_self]; simp
  · rw [h j v hj h0]; simp [h0]

/-- **C87.**  Feed the answer of `fit` (with an exact solver, after any use of the builder at this point) to the
builder's own check.  An infeasible answer always passes silently.  For a feasible answer the check raises exactly
when the answer leaves the prediction of the person unchanged at a score within `10⁻⁴` of 0; otherwise it returns, and
warns about an action on a non-actionable feature exactly when a changed feature is not in the builder's list of
actionable features, and about a "near-zero score" exactly when the prediction is unchanged (the score is then *not*
near zero).  The item counts and the costs never cause an error or a warning. -/
theorem C87_check (hso : SetOrderOk ext) (ho : o.Exact) (hr : b0.Reachable ext)
    (hx : b0.setX ext x = (b1, .ok ())) (ha : b1.After o b) (hf : b.fit o = .ok (b', i)) :
    (i.feasible = false → b'.checkSolution i = .ok []) ∧
    (i.feasible = true → ∃ a, i.actions = some a ∧
      (∀ er, b'.checkSolution i = .error er ↔
        er = .assertion ∧ b0.prediction x = b0.prediction (vadd x a) ∧ |b0.score (vadd x a)| ≤ 1 / 10 ^ 4) ∧
      ∀ w, b'.checkSolution i = .ok w →
        (Warn.notActionable ∈ w ↔ ∃ (j : ℕ) (aj : K), a[j]? = some aj ∧ aj ≠ 0 ∧ j ∉ b0.actionableIdx) ∧
        (Warn.sameOutcome ∈ w ↔ b0.prediction x = b0.prediction (vadd x a)) ∧
        Warn.maxCost ∉ w ∧ Warn.issue ∉ w) := by
  constructor
  · intro hi; unfold Builder.checkSolution; rw [hi]; rfl
  intro hi
  obtain ⟨a, hia, hrec⟩ := C22_actionable hso ho.1 hr hx ha hf hi
  obtain ⟨feats, κ, a', cs, c, h1, h2, h3, ⟨h4, h5, h6, h6'⟩, h7, h8, h9⟩ := fit_report hso ho hr hx ha hf hi
  rw [hia] at h1; cases h1
  refine ⟨a, hia, ?_⟩
  have hfar : ∀ (j : ℕ) (aj : K), a[j]? = some aj → aj ≠ 0 → isClose aj 0 = false := by
    intro j aj hj h0
    rw [h6] at hj
    exact choice_far hso hr.ok h4 h5 hj h0
  -- the fields of the builder
  have hp : SamePoint b1 b' := by
    obtain ⟨-, rfl, -⟩ := fit_ok hf
    exact ha.point.trans (SameFixed.solve _ _).point
  obtain ⟨_, _, -, -, -, rfl⟩ := setX_ok hx
  have ex : b'.x = some x := hp.x
  have ep : ∀ v, b'.prediction v = b0.prediction v := by
    intro v; unfold Builder.prediction Builder.score; rw [hp.coefs, hp.intercept]
  have es : ∀ v, b'.score v = b0.score v := by
    intro v; unfold Builder.score; rw [hp.coefs, hp.intercept]
  have elo : b'.minItems = b0.minItems := hp.minItems
  have ehi : b'.maxItems = b0.maxItems := hp.maxItems
  have eact : b'.actionableIdx = b0.actionableIdx := hp.actionableIdx
  have ect : b'.costType = b0.costType := hp.costType
  have hlen := changedIdx_length hfar
  have hmin := hrec.min
  have hmax := hrec.max
  have q1 : decide (1 ≤ (changedIdx a).length) = true := by
    rw [hlen, decide_eq_true_eq]; exact le_trans (le_max_right _ _) hmin
  have q2 : decide (b'.minItems ≤ (changedIdx a).length ∧ (changedIdx a).length ≤ b'.maxItems) = true := by
    rw [hlen, decide_eq_true_eq, elo, ehi]
    exact ⟨le_trans (le_max_left _ _) hmin, hmax⟩
  have hcl : cs.length = a.length := by
    rw [h6, h6', actVec_length, cstVec_length]
  have q3 : (changedIdx a).all (fun j => decide (0 < cs.getD j 0)) = true := by
    rw [List.all_eq_true]
    intro j hj
    obtain ⟨aj, hj, h0⟩ := (mem_changedIdx hfar j).mp hj
    have hl := (List.getElem?_eq_some_iff.mp hj).1
    have hc := List.getElem?_eq_getElem (l := cs) (i := j) (by omega)
    rw [List.getD_eq_getElem?_getD, hc, Option.getD_some, decide_eq_true_eq]
    exact (h7 j aj _ hj hc).2 h0
  have q4 : (staticIdx a).all (fun j => isClose (cs.getD j 0) 0) = true := by
    rw [List.all_eq_true]
    intro j hj
    have hj := mem_staticIdx hfar hj
    have hl := (List.getElem?_eq_some_iff.mp hj).1
    have hc := List.getElem?_eq_getElem (l := cs) (i := j) (by omega)
    rw [List.getD_eq_getElem?_getD, hc, Option.getD_some, (h7 j 0 _ hj hc).1 rfl]
    exact isClose_self 0
  have q5 : costWarn b'.costType i.cost cs = [] := by
    rw [ect, h3]
    unfold costWarn
    cases hct : b0.costType with
    | max =>
      obtain ⟨m1, m2⟩ := h8 hct
      have hne : cs ≠ [] := List.ne_nil_of_mem m1
      have e : c = npMax cs := le_antisymm (le_npMax m1) (m2 _ (npMax_mem hne))
      dsimp only
      rw [← e, if_pos]
      unfold isCloseTol
      simp only [sub_self, abs_zero, decide_eq_true_eq]
      positivity
    | total =>
      have e := h9 (by rw [hct]; decide)
      dsimp only
      rw [← e, isClose_self, if_pos rfl]
    | loc => rfl
  have q6 : isCloseTol (1 / 10 ^ 5) (1 / 10 ^ 4) (b0.score (vadd x a)) 0
      = decide (|b0.score (vadd x a)| ≤ 1 / 10 ^ 4) := by
    unfold isCloseTol; simp
  unfold Builder.checkSolution
  rw [if_pos hi, hia, h2, ex]
  dsimp only
  rw [q1, q2, q3, q4, q5, eact, ep, ep, es, q6]
  have hall : ((changedIdx a).all fun j => decide (j ∈ b0.actionableIdx)) = true ↔
      ¬ ∃ (j : ℕ) (aj : K), a[j]? = some aj ∧ aj ≠ 0 ∧ j ∉ b0.actionableIdx := by
    rw [List.all_eq_true]
    constructor
    · rintro h ⟨j, aj, hj, h0, hn⟩
      exact hn (of_decide_eq_true (h j ((mem_changedIdx hfar j).mpr ⟨aj, hj, h0⟩)))
    · intro h j hj
      obtain ⟨aj, hj, h0⟩ := (mem_changedIdx hfar j).mp hj
      by_contra hn
      exact h ⟨j, aj, hj, h0, fun hh => hn (decide_eq_true hh)⟩
  by_cases hsame : b0.prediction x = b0.prediction (vadd x a)
  · by_cases hnear : |b0.score (vadd x a)| ≤ 1 / 10 ^ 4
    · rw [decide_eq_true hsame, decide_eq_true hnear]
      constructor
      · intro er
        constructor
        · intro h; cases h; exact ⟨rfl, hsame, hnear⟩
        · rintro ⟨rfl, -, -⟩; rfl
      · intro w h; cases h
    · rw [decide_eq_true hsame, decide_eq_false hnear]
      constructor
      · intro er
        constructor
        · intro h; cases h
        · rintro ⟨-, -, h⟩; exact absurd h hnear
      · intro w h
        cases h
        by_cases hb : ((changedIdx a).all fun j => decide (j ∈ b0.actionableIdx)) = true
        · have := hall.mp hb
          simp [hb, hsame, this]
        · have := not_not.mp fun hh => hb (hall.mpr hh)
          simp [hb, hsame, this]
  · rw [decide_eq_false hsame]
    constructor
    · intro er
      constructor
      · intro h; cases h
      · rintro ⟨-, h, -⟩; exact absurd h hsame
    · intro w h
      cases h
      by_cases hb : ((changedIdx a).all fun j => decide (j ∈ b0.actionableIdx)) = true
      · have := hall.mp hb
        simp [hb, hsame, this]
      · have := not_not.mp fun hh => hb (hall.mpr hh)
        simp [hb, hsame, this]

/-- **C87** for rejected persons: when the score of the person is strictly on the undesired side and the builder's
list of actionable features covers those that are actionable now, the check of every answer of `fit` passes without
any warning. -/
theorem C87_pass (hso : SetOrderOk ext) (ho : o.Exact) (hr : b0.Reachable ext)
    (hx : b0.setX ext x = (b1, .ok ())) (ha : b1.After o b) (hf : b.fit o = .ok (b', i)) (hd : Denied b0 x)
    (hact : ∀ (j : ℕ) (e : Elem K), b0.aset.elems[j]? = some e → e.actionable = true → j ∈ b0.actionableIdx) :
    b'.checkSolution i = .ok [] := by
  obtain ⟨h1, h2⟩ := C87_check hso ho hr hx ha hf
  cases hi : i.feasible with
  | false => exact h1 hi
  | true =>
    obtain ⟨a, hia, her, hok⟩ := h2 hi
    obtain ⟨a', h3, hrec⟩ := C22_actionable hso ho.1 hr hx ha hf hi
    rw [hia] at h3; cases h3
    obtain ⟨a', h3, hne, -⟩ := C23_flip_partial hso ho.1 hr hx ha hf hi
    rw [hia] at h3; cases h3
    have hpx : b0.prediction x = -b0.aset.yDesired := by
      unfold Denied at hd
      unfold Builder.prediction Builder.score sgn
      rcases hr.ok.aset.wf.y with hy | hy
      · rw [hy] at hd ⊢
        have : dot b0.coefs x + b0.intercept < 0 := by simpa using hd
        rw [if_neg (not_lt.mpr this.le), if_pos this]
      · rw [hy] at hd ⊢
        have : 0 < dot b0.coefs x + b0.intercept := by push_cast at hd; linarith
        rw [if_pos this]; rfl
    have hdiff : ¬ b0.prediction x = b0.prediction (vadd x a) := by
      rw [hpx]; exact fun h => hne h.symm
    cases hc : b'.checkSolution i with
    | error er => exact absurd ((her er).mp hc).2.1 hdiff
    | ok w =>
      obtain ⟨w1, w2, w3, w4⟩ := hok w hc
      have w1' : Warn.notActionable ∉ w := by
        rw [w1]
        rintro ⟨j, aj, hj, h0, hn⟩
        have hl := (List.getElem?_eq_some_iff.mp hj).1
        have hxl : a.length = x.length := hrec.permitted.1
        obtain ⟨_, _, -, hbi, -, -⟩ := setX_ok hx
        have hnl := (buildInfo_spec hso hr.ok hbi).2.1
        have hel := hr.ok.aset.wf.length
        have e1 := List.getElem?_eq_getElem (l := b0.aset.elems) (i := j) (by omega)
        have e2 := List.getElem?_eq_getElem (l := x) (i := j) (by omega)
        rcases hrec.permitted.2 j _ _ _ e1 e2 hj with h | ⟨h, -⟩
        · exact h0 (by linarith)
        · exact hn (hact j _ e1 h)
      have w2' : Warn.sameOutcome ∉ w := by rw [w2]; exact hdiff
      cases w with
      | nil => rfl
      | cons q w =>
        exfalso
        have : q ∈ q :: w := List.mem_cons_self
        cases q with
        | notActionable => exact w1' this
        | sameOutcome => exact w2' this
        | maxCost => exact w3 this
        | issue => exact w4 this

/-- A new builder's list of actionable features covers the actionable features. -/
theorem mkBuilder_actionable {be : Backend} {ct : CostType} {A : ActionSet K} {w : List K} {t : K}
    (h : mkBuilder be ct A w t = .ok b) : ∀ (j : ℕ) (e : Elem K), b.aset.elems[j]? = some e →
      (j ∈ b.actionableIdx ↔ e.actionable = true) := by
  have e : b.actionableIdx = (List.range b.aset.elems.length).filter fun j =>
      match b.aset.elems[j]? with | some e => e.actionable | none => false := by
    unfold mkBuilder at h
    obtain ⟨-, -, h⟩ := bind_ok_iff.mp h
    dsimp only at h
    by_cases hk : A.alignmentKnown = true
    · rw [if_pos hk] at h; cases h; rfl
    · rw [if_neg hk] at h
      obtain ⟨A', hA', h'⟩ := bind_ok_iff.mp h
      cases h'; rfl
  intro j e' he
  rw [e, List.mem_filter, List.mem_range, he]
  have := (List.getElem?_eq_some_iff.mp he).1
  simp [this]

/-- **C87** for the common case: a new builder, a rejected person, an exact solver – the check passes silently after
every fit. -/
theorem C87_fresh {be : Backend} {ct : CostType} {A : ActionSet K} {w : List K} {t : K}
    (hso : SetOrderOk ext) (ho : o.Exact) (hA : A.Reachable ext) (hb : mkBuilder be ct A w t = .ok b0)
    (hx : b0.setX ext x = (b1, .ok ())) (ha : b1.After o b) (hf : b.fit o = .ok (b', i)) (hd : Denied b0 x) :
    b'.checkSolution i = .ok [] :=
  C87_pass hso ho (.mk hA hb) hx ha hf hd fun j e he => (mkBuilder_actionable hb j e he).mpr

/-- The user makes `a` actionable and `b` immutable. -/
def exSwapped (b : Builder ℚ) : Builder ℚ :=
  { b with aset := ((b.aset.setElemAttr "a" "actionable" (.bool true)).1.setElemAttr "b" "actionable" (.bool false)).1 }

/-- Non-vacuity of C87: a new builder for `a + 2 b - 1` and the rejected person `[0, 0]`; every exact solver finds
recourse, and the check passes silently. -/
theorem C87_example (be : Backend) (ct : CostType) : ∃ b0 : Builder ℚ, b0.Reachable exExt ∧ Denied b0 [0, 0] ∧
    ∃ b1, b0.setX exExt [0, 0] = (b1, .ok ()) ∧ ∀ o : Oracle ℚ, o.Exact → ∃ b' i, b1.fit o = .ok (b', i) ∧
      i.feasible = true ∧ b'.checkSolution i = .ok [] := by
  have key : ∀ be ct, ∃ A : ActionSet ℚ, exSet [[0, 0], [1, 1]] ["a", "b"] = .ok A ∧ ∃ b0 : Builder ℚ,
      mkBuilder be ct A [1, 2] (-1) = .ok b0 ∧ (Denied b0 [0, 0] ∧ (b0.setX exExt [0, 0]).2 = .ok () ∧
        admitted (b0.buildArgs [0, 0] (b0.setX exExt [0, 0]).1.feats) (fun _ => true) ≠ []) := by
    intro be ct; cases be <;> cases ct <;> decide +kernel
  obtain ⟨A, hA, b0, hb, hd, hx, hne⟩ := key be ct
  have hr : b0.Reachable exExt := .mk (.mk hA) hb
  refine ⟨b0, hr, hd, _, Prod.ext rfl hx, fun o ho => ?_⟩
  obtain ⟨b1, feats, g1, -, g2, b', i, g3, g4⟩ := exSolve exExt_order hr hx ho
  rw [g1]
  refine ⟨b', i, g3, ?_, C87_fresh exExt_order ho (.mk hA) hb g1 .refl g3 hd⟩
  rcases g4 with ⟨h, -⟩ | ⟨κ, -, -, hf, -⟩
  · rw [g2] at hne; exact absurd h hne
  · exact hf

/-- The check raises on a correct answer: a person approved by the classifier `(a + 1) / 20000` with score `5⋅10⁻⁵`.  The
only recourse is to raise the feature, the prediction stays 1, and the score `10⁻⁴` counts as zero. -/
theorem C87_raises_refuted (be : Backend) (ct : CostType) : ∃ b0 : Builder ℚ, b0.Reachable exExt ∧
    ∃ b1, b0.setX exExt [0] = (b1, .ok ()) ∧ ∀ o : Oracle ℚ, o.Exact → ∃ b' i, b1.fit o = .ok (b', i) ∧
      i.actions = some [1] ∧ b0.prediction [0] = 1 ∧ b0.prediction [1] = 1 ∧
      b'.checkSolution i = .error .assertion := by
  have key : ∀ be ct, ∃ A : ActionSet ℚ, exSet [[0], [1]] ["a"] = .ok A ∧ ∃ b0 : Builder ℚ,
      mkBuilder be ct A [1 / 20000] (1 / 20000) = .ok b0 ∧ ((b0.setX exExt [0]).2 = .ok () ∧
        b0.prediction [0] = 1 ∧ b0.prediction [1] = 1 ∧ b0.prediction (vadd [0] [1]) = 1 ∧
        |b0.score (vadd [0] [1])| ≤ 1 / 10 ^ 4 ∧
        admitted (b0.buildArgs [0] (b0.setX exExt [0]).1.feats) (fun _ => true) ≠ [] ∧
        ∀ κ ∈ optChoices (b0.buildArgs [0] (b0.setX exExt [0]).1.feats) (fun _ => true),
          actVec b0.coefs.length (b0.setX exExt [0]).1.feats κ = [1]) := by
    intro be ct; cases be <;> cases ct <;> decide +kernel
  obtain ⟨A, hA, b0, hb, hx, p1, p2, p3, p4, hne, hopt⟩ := key be ct
  have hr : b0.Reachable exExt := .mk (.mk hA) hb
  refine ⟨b0, hr, _, Prod.ext rfl hx, fun o ho => ?_⟩
  obtain ⟨b1, feats, g1, -, g2, b', i, g3, g4⟩ := exSolve exExt_order hr hx ho
  rw [g1]
  rw [g2] at hne hopt
  rcases g4 with ⟨h, -⟩ | ⟨κ, hκ, -, hf, ha, -⟩
  · exact absurd h hne
  · rw [hopt κ hκ] at ha
    obtain ⟨a, ha', her, -⟩ := (C87_check exExt_order ho hr g1 .refl g3).2 hf
    rw [ha] at ha'; cases ha'
    exact ⟨b', i, g3, ha, p1, p2, (her _).mpr ⟨rfl, p1.trans p3.symm, p4⟩⟩

/-- The check warns on correct answers: with a score that is far from zero on the desired side it reports a "near-zero
score" (classifier `a + 1` at 0; the new score is 2), and after the user made `a` actionable and `b` immutable it
reports an action outside the actionable features. -/
theorem C87_warns_refuted (be : Backend) (ct : CostType) :
    (∃ b0 : Builder ℚ, b0.Reachable exExt ∧ ∃ b1, b0.setX exExt [0] = (b1, .ok ()) ∧
      ∀ o : Oracle ℚ, o.Exact → ∃ b' i, b1.fit o = .ok (b', i) ∧ i.actions = some [1] ∧ b0.score [1] = 2 ∧
        ∃ w, b'.checkSolution i = .ok w ∧ .sameOutcome ∈ w) ∧
    ∃ b0 : Builder ℚ, b0.Reachable exExt ∧ b0.aset.elems.map (·.actionable) = [true, false] ∧ Denied b0 [0, 0] ∧
      ∃ b1, b0.setX exExt [0, 0] = (b1, .ok ()) ∧
      ∀ o : Oracle ℚ, o.Exact → ∃ b' i, b1.fit o = .ok (b', i) ∧ i.actions = some [1, 0] ∧
        ∃ w, b'.checkSolution i = .ok w ∧ .notActionable ∈ w := by
  constructor
  · have key : ∀ be ct, ∃ A : ActionSet ℚ, exSet [[0], [1]] ["a"] = .ok A ∧ ∃ b0 : Builder ℚ,
        mkBuilder be ct A [1] 1 = .ok b0 ∧ ((b0.setX exExt [0]).2 = .ok () ∧
          b0.prediction [0] = 1 ∧ b0.prediction (vadd [0] [1]) = 1 ∧ b0.score [1] = 2 ∧
          ¬ |b0.score (vadd [0] [1])| ≤ 1 / 10 ^ 4 ∧
          admitted (b0.buildArgs [0] (b0.setX exExt [0]).1.feats) (fun _ => true) ≠ [] ∧
          ∀ κ ∈ optChoices (b0.buildArgs [0] (b0.setX exExt [0]).1.feats) (fun _ => true),
            actVec b0.coefs.length (b0.setX exExt [0]).1.feats κ = [1]) := by
      intro be ct; cases be <;> cases ct <;> decide +kernel
    obtain ⟨A, hA, b0, hb, hx, p1, p2, p3, p4, hne, hopt⟩ := key be ct
    have hr : b0.Reachable exExt := .mk (.mk hA) hb
    refine ⟨b0, hr, _, Prod.ext rfl hx, fun o ho => ?_⟩
    obtain ⟨b1, feats, g1, -, g2, b', i, g3, g4⟩ := exSolve exExt_order hr hx ho
    rw [g1]
    rw [g2] at hne hopt
    rcases g4 with ⟨h, -⟩ | ⟨κ, hκ, -, hf, ha, -⟩
    · exact absurd h hne
    · rw [hopt κ hκ] at ha
      obtain ⟨a, ha', her, hok⟩ := (C87_check exExt_order ho hr g1 .refl g3).2 hf
      rw [ha] at ha'; cases ha'
      refine ⟨b', i, g3, ha, p3, ?_⟩
      cases hc : b'.checkSolution i with
      | error er => exact absurd ((her er).mp hc).2.2 p4
      | ok w => exact ⟨w, rfl, (hok w hc).2.1.mpr (p1.trans p2.symm)⟩
  · have key : ∀ be ct, ∃ b00 : Builder ℚ,
        exBuilderE be ct [[0, 0], [1, 1]] ["a", "b"] (fun A => .ok (A.setElemAttr "a" "actionable" (.bool false)).1)
          [1, 1] (-1) = .ok b00 ∧
        ∃ A1, A1 = (b00.aset.setElemAttr "a" "actionable" (.bool true)).1 ∧
        ∃ A2, A2 = (A1.setElemAttr "b" "actionable" (.bool false)).1 ∧
        ∃ b0 : Builder ℚ, b0 = { b00 with aset := A2 } ∧ (A2.names = b00.aset.names ∧
          b0.aset.elems.map (·.actionable) = [true, false] ∧ Denied b0 [0, 0] ∧
          (b0.setX exExt [0, 0]).2 = .ok () ∧ b0.actionableIdx = [1] ∧ b0.prediction [0, 0] = -1 ∧
          b0.prediction (vadd [0, 0] [1, 0]) = 0 ∧
          admitted (b0.buildArgs [0, 0] (b0.setX exExt [0, 0]).1.feats) (fun _ => true) ≠ [] ∧
          ∀ κ ∈ optChoices (b0.buildArgs [0, 0] (b0.setX exExt [0, 0]).1.feats) (fun _ => true),
            actVec b0.coefs.length (b0.setX exExt [0, 0]).1.feats κ = [1, 0]) := by
      have key : ∀ be ct, ∃ b00 : Builder ℚ,
        exBuilderE be ct [[0, 0], [1, 1]] ["a", "b"] (fun A => .ok (A.setElemAttr "a" "actionable" (.bool false)).1)
          [1, 1] (-1) = .ok b00 ∧ ((((b00.aset.setElemAttr "a" "actionable" (.bool true)).1.setElemAttr "b" "actionable"
            (.bool false)).1).names = b00.aset.names ∧
          (exSwapped b00).aset.elems.map (·.actionable) = [true, false] ∧ Denied (exSwapped b00) [0, 0] ∧
          ((exSwapped b00).setX exExt [0, 0]).2 = .ok () ∧ (exSwapped b00).actionableIdx = [1] ∧
          (exSwapped b00).prediction [0, 0] = -1 ∧
          (exSwapped b00).prediction (vadd [0, 0] [1, 0]) = 0 ∧
          admitted ((exSwapped b00).buildArgs [0, 0] ((exSwapped b00).setX exExt [0, 0]).1.feats) (fun _ => true) ≠ [] ∧
          ∀ κ ∈ optChoices ((exSwapped b00).buildArgs [0, 0] ((exSwapped b00).setX exExt [0, 0]).1.feats) (fun _ => true),
            actVec (exSwapped b00).coefs.length ((exSwapped b00).setX exExt [0, 0]).1.feats κ = [1, 0]) := by
        intro be ct; cases be <;> cases ct <;> decide +kernel
      intro be ct
      obtain ⟨b00, h1, h2⟩ := key be ct
      exact ⟨b00, h1, _, rfl, _, rfl, _, rfl, h2⟩
    obtain ⟨b00, h0, A1, e1, A2, e2, b0, e0, hn, hact, hd, hx, hidx, p1, p2, hne, hopt⟩ := key be ct
    have hr0 : b00.Reachable exExt := exBuilderE_reachable h0 fun A A' hA h => by cases h; exact .setElem _ _ _ hA
    have hr : b0.Reachable exExt := by
      rw [e0]
      refine .user hr0 ?_ hn
      rw [e2, e1]; exact .setElem _ _ _ (.setElem _ _ _ hr0.ok.aset)
    refine ⟨b0, hr, hact, hd, _, Prod.ext rfl hx, fun o ho => ?_⟩
    obtain ⟨b1, feats, g1, -, g2, b', i, g3, g4⟩ := exSolve exExt_order hr hx ho
    rw [g1]
    rw [g2] at hne hopt
    rcases g4 with ⟨h, -⟩ | ⟨κ, hκ, -, hf, ha, -⟩
    · exact absurd h hne
    · rw [hopt κ hκ] at ha
      obtain ⟨a, ha', her, hok⟩ := (C87_check exExt_order ho hr g1 .refl g3).2 hf
      rw [ha] at ha'; cases ha'
      refine ⟨b', i, g3, ha, ?_⟩
      cases hc : b'.checkSolution i with
      | error er =>
        have := ((her er).mp hc).2.1
        rw [p1, p2] at this; exact absurd this (by decide)
      | ok w =>
        refine ⟨w, rfl, (hok w hc).1.mpr ⟨0, 1, rfl, one_ne_zero, ?_⟩⟩
        rw [hidx]; decide

end Recourse
