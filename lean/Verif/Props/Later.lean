import Verif.Props.Symmetry
import Verif.Props.Items

/-!
# Later changes of the action set (C80)
-/

set_option linter.unusedSectionVars false

namespace Recourse

variable {K : Type} [Field K] [LinearOrder K] [IsStrictOrderedRing K] [FloorRing K]

variable {ext : Ext K} {x : List K} {be be' : Backend}
  {o o' : Oracle K} {b b1 b2 b3 d d1 d2 d3 : Builder K} {i i' : Info K}

/-- Exact solvers give the same answers on two programs that admit the same choices at the same cost. -/
theorem posed_same {n n' : ℕ} {p p' : BuildArgs K}
    (hok : FeatsOK n p.feats) (hok' : FeatsOK n' p'.feats) (hp : Posed n be p (fun _ => True) b)
    (hp' : Posed n' be' p' (fun _ => True) d) (ho : o.Exact) (ho' : o'.Exact)
    (himp : ∀ κ, ChoiceOK p κ ↔ ChoiceOK p' κ) (hct : p'.costType = p.costType)
    (hobj : ∀ ct κ, choiceObj ct p'.feats κ = choiceObj ct p.feats κ) :
    (d.solve o').solutionInfo.feasible = (b.solve o).solutionInfo.feasible ∧
    (d.solve o').solutionInfo.upperbound = (b.solve o).solutionInfo.upperbound ∧
    (p.costType ≠ .max → (d.solve o').solutionInfo.cost = (b.solve o).solutionInfo.cost) := by
  cases hfi : (b.solve o).solutionInfo.feasible with
  | true =>
    have hfi' := posed_feasible hok hok' hp hp' ho.1 ho' (fun κ => (himp κ).mp) hfi
    refine ⟨hfi', ?_⟩
    obtain ⟨u, u', q1, q2, q3, q4⟩ := posed_bound hok hok' hp hp' ho ho' (fun κ => (himp κ).mp) hct
      (fun κ => hobj _ κ) hfi
    obtain ⟨v, v', s1, s2, s3, s4⟩ := posed_bound hok' hok hp' hp ho' ho (fun κ => (himp κ).mpr) hct.symm
      (fun κ => (hobj _ κ).symm) hfi'
    rw [q2] at s1; rw [q1] at s2
    cases s1; cases s2
    have : u' = u := le_antisymm q3 s3
    subst this
    refine ⟨by rw [q1, q2], fun hm => ?_⟩
    obtain ⟨z1, z2⟩ := q4 hm
    rw [z1, z2]
  | false =>
    have hfi' : (d.solve o').solutionInfo.feasible = false := by
      cases hc : (d.solve o').solutionInfo.feasible with
      | false => rfl
      | true => rw [posed_feasible hok' hok hp' hp ho'.1 ho (fun κ => (himp κ).mpr) hc] at hfi; cases hfi
    refine ⟨hfi', ?_⟩
    have : ∀ {n be p P} {b : Builder K} {o : Oracle K}, FeatsOK n p.feats → Posed n be p P b → o.Sound →
        (b.solve o).solutionInfo.feasible = false → (b.solve o).solutionInfo = emptyInfo := by
      intro n be p P b o g1 g2 g3 g4
      rcases g2.solved g1 g3 with ⟨-, he, -⟩ | ⟨σ, κ, -, -, -, -, hr, -⟩
      · exact he
      · rw [hr.feasible] at g4; cases g4
    rw [this hok hp ho.1 hfi, this hok' hp' ho'.1 hfi']
    exact ⟨rfl, fun _ => rfl⟩

/-- Two builders share an action set and are asked the same question. -/
structure SameQuestion (b d : Builder K) : Prop where
  aset : d.aset = b.aset
  coefs : d.coefs = b.coefs
  intercept : d.intercept = b.intercept
  costType : d.costType = b.costType

theorem SameQuestion.buildInfo (h : SameQuestion b d) (hb : b.Reachable ext) (hd : d.Reachable ext) (x : List K) :
    d.buildInfo ext x = b.buildInfo ext x := by
  have hv : d.varNames = b.varNames := by rw [hd.ok.names, hb.ok.names, h.aset]
  have hm : ∀ cn, mkFeat ext d x cn = mkFeat ext b x cn := by
    intro cn
    funext g
    unfold mkFeat
    rw [hv, h.coefs, h.costType]
  unfold Builder.buildInfo
  rw [h.aset]
  simp only [hm]

/-- Two builders with the same action set, classifier and cost type accept the same points, whatever was done
with them before and whatever their item limits. -/
theorem SameQuestion.accepts (h : SameQuestion b d) (hb : b.Reachable ext) (hd : d.Reachable ext) :
    (d.setX ext x).2 = (b.setX ext x).2 := by
  rw [setX_status, setX_status, h.coefs, h.buildInfo hb hd]
  by_cases hx : x.length ≠ b.coefs.length
  · rw [if_pos hx, if_pos hx]
  · rw [if_neg hx, if_neg hx]
    cases b.buildInfo ext x with
    | error e => rfl
    | ok feats =>
      simp only [ok_bind]
      exact buildMip_status' (be := b.backend) (p := b.buildArgs x feats) (p' := d.buildArgs x feats)
        (by unfold Builder.buildArgs; dsimp only; rw [h.aset]) rfl h.costType

/-- Two builders with the same action set, classifier and cost type give the same answers, whatever was done with
them before, if they allow the same numbers of changes: the same maximum, or both as many as there are
actionable features. -/
theorem SameQuestion.answers (h : SameQuestion b d) (hso : SetOrderOk ext) (hb : b.Reachable ext)
    (hd : d.Reachable ext) (hmin : max d.minItems 1 = max b.minItems 1)
    (hmax : d.maxItems = b.maxItems ∨ (numActionable b.aset ≤ b.maxItems ∧ numActionable b.aset ≤ d.maxItems))
    (ho : o.Exact) (ho' : o'.Exact) (hx : b.setX ext x = (b1, .ok ())) (hx' : d.setX ext x = (d1, .ok ()))
    (hr : b1.Refitted o b2) (hr' : d1.Refitted o' d2)
    (hf : b2.fit o = .ok (b3, i)) (hf' : d2.fit o' = .ok (d3, i')) :
    i'.feasible = i.feasible ∧ i'.upperbound = i.upperbound ∧ (b.costType ≠ .max → i'.cost = i.cost) := by
  obtain ⟨feats, a1, a2, a3⟩ := Posed.setX hso hb.ok hx
  obtain ⟨feats', c1, c2, c3⟩ := Posed.setX hso hd.ok hx'
  rw [h.buildInfo hb hd, a1] at c1
  obtain rfl := Except.ok.inj c1
  obtain ⟨-, -, rfl⟩ := fit_ok hf
  obtain ⟨-, -, rfl⟩ := fit_ok hf'
  have hlen := feats_length_le hso hb.ok a1
  have hsz : ∀ κ, choiceSize feats κ ≤ feats.length := fun κ => by
    unfold choiceSize
    exact List.countP_le_length
  refine posed_same a2 c2 (a3.refitted hr) (c3.refitted hr') ho ho' (fun κ => ?_) h.costType (fun _ _ => rfl)
  have hsc : d.score x = b.score x := by unfold Builder.score; rw [h.coefs, h.intercept]
  have hs := hsz κ
  constructor
  · rintro ⟨k1, k2, k3, k4, k5⟩
    unfold Builder.buildArgs at k1 k2 k3 k4 k5
    dsimp only at k1 k2 k3 k4 k5
    refine ⟨k1, ?_, ?_, ?_, ?_⟩ <;> unfold Builder.buildArgs <;> dsimp only
    · rw [h.aset, hsc]; exact k2
    · rw [hmin]; exact k3
    · rcases hmax with hm | hm <;> omega
    · rw [h.aset]; exact k5
  · rintro ⟨k1, k2, k3, k4, k5⟩
    unfold Builder.buildArgs at k1 k2 k3 k4 k5
    dsimp only at k1 k2 k3 k4 k5
    refine ⟨k1, ?_, ?_, ?_, ?_⟩ <;> unfold Builder.buildArgs <;> dsimp only
    · rw [← hsc, ← h.aset]; exact k2
    · rw [← hmin]; exact k3
    · rcases hmax with hm | hm <;> omega
    · rw [← h.aset]; exact k5

theorem mkBuilder_question {be : Backend} (hk : b.aset.alignmentKnown = true)
    (hd : mkBuilder be b.costType b.aset b.coefs b.intercept = .ok d) : SameQuestion b d := by
  obtain ⟨h1, h2, h3, h4, -⟩ := mkBuilder_parts hd
  rw [if_pos hk] at h1
  exact ⟨(Except.ok.inj h1).symm, h2, h3, h4⟩

/-- **C80**, acceptance: after any history and any changes of its action set, a builder accepts the same points as
a new builder for the set as it is now, and rejects the others with the same error. -/
theorem C80_accepts (hb : b.Reachable ext) (hk : b.aset.alignmentKnown = true)
    (hd : mkBuilder be b.costType b.aset b.coefs b.intercept = .ok d) : (d.setX ext x).2 = (b.setX ext x).2 :=
  (mkBuilder_question hk hd).accepts hb (.mk hb.ok.aset hd)

/-- **C80** (partial).  After any history and any changes of its (aligned) action set, a builder gives the same
answers as a new builder for the set as it is now: there is recourse for the one iff for the other, and the
objective (for total and local costs, the reported cost) is the same.  Any back ends, exact solvers, refits.
Missing from the full property: the item limits of the old builder must admit what a new builder admits;
this fails when more features have become actionable (`C80_grown_refuted`). -/
theorem C80_follows_partial (hso : SetOrderOk ext) (hb : b.Reachable ext) (hk : b.aset.alignmentKnown = true)
    (hmin : b.minItems ≤ 1) (hmax : numActionable b.aset ≤ b.maxItems)
    (hd : mkBuilder be b.costType b.aset b.coefs b.intercept = .ok d)
    (ho : o.Exact) (ho' : o'.Exact) (hx : b.setX ext x = (b1, .ok ())) (hx' : d.setX ext x = (d1, .ok ()))
    (hr : b1.Refitted o b2) (hr' : d1.Refitted o' d2)
    (hf : b2.fit o = .ok (b3, i)) (hf' : d2.fit o' = .ok (d3, i')) :
    i'.feasible = i.feasible ∧ i'.upperbound = i.upperbound ∧ (b.costType ≠ .max → i'.cost = i.cost) := by
  have hA := hb.ok.aset
  have hmi := (mkBuilder_offers hA hd).2.2.2.2.2
  refine (mkBuilder_question hk hd).answers hso hb (.mk hA hd) ?_ (Or.inr ⟨hmax, ?_⟩) ho ho' hx hx' hr hr' hf hf'
  · rw [hmi.1]; omega
  · rw [hmi.2]

/-- **C80**, with explicit limits: with the item limits of the old builder given to the new one, the answers always
agree. -/
theorem C80_limits {lo hi : ℕ} (hso : SetOrderOk ext) (hb : b.Reachable ext) (hk : b.aset.alignmentKnown = true)
    (hlo : b.minItems = lo) (hhi : b.maxItems = hi)
    (hle : hi ≤ numActionable b.aset) {d0 : Builder K}
    (hd : mkBuilder be b.costType b.aset b.coefs b.intercept = .ok d0)
    (hd' : ((d0.setMinItems (some lo)).1.setMaxItems (some hi)).1 = d)
    (ho : o.Exact) (ho' : o'.Exact) (hx : b.setX ext x = (b1, .ok ())) (hx' : d.setX ext x = (d1, .ok ()))
    (hr : b1.Refitted o b2) (hr' : d1.Refitted o' d2)
    (hf : b2.fit o = .ok (b3, i)) (hf' : d2.fit o' = .ok (d3, i')) :
    i'.feasible = i.feasible ∧ i'.upperbound = i.upperbound ∧ (b.costType ≠ .max → i'.cost = i.cost) := by
  have hA := hb.ok.aset
  have hq := mkBuilder_question hk hd
  have rd : d.Reachable ext := hd' ▸ .maxItems _ (.minItems _ (.mk hA hd))
  have hna : d0.nActionable = numActionable b.aset := by
    have hmx := (mkBuilder_offers hA hd).2.2.2.2.2.2
    rw [← hmx]
    unfold mkBuilder at hd
    obtain ⟨-, -, h⟩ := bind_ok_iff.mp hd
    dsimp only at h
    rw [if_pos hk] at h
    cases h
    rfl
  have e : d = { d0 with minItems := lo, maxItems := min hi (numActionable b.aset) } := by
    have e1 : (d0.setMinItems (some lo)).1 = { d0 with minItems := lo } := by
      unfold Builder.setMinItems
      dsimp only
      rw [if_neg (by omega)]
      rfl
    rw [← hd', ← hna, e1]
    unfold Builder.setMaxItems
    dsimp only
    rw [if_neg (by omega)]
    rfl
  refine SameQuestion.answers (b := b) (d := d) ?_ hso hb rd ?_ (Or.inl ?_) ho ho' hx hx' hr hr' hf hf'
  · rw [e]; exact ⟨hq.aset, hq.coefs, hq.intercept, hq.costType⟩
  · rw [e, hlo]
  · rw [e, hhi]; dsimp only; omega

/-- A builder for `a + b - 2` made while `b` is immutable, and the action set afterwards with `b` actionable. -/
theorem exGrown (be : Backend) (ct : CostType) : ∃ b0 : Builder ℚ, b0.Reachable exExt ∧ b0.costType = ct ∧
    b0.coefs = [1, 1] ∧ b0.intercept = -2 ∧ b0.nActionable = 1 ∧ b0.maxItems = 1 ∧
    ∃ b : Builder ℚ, b = { b0 with aset := (b0.aset.setElemAttr "b" "actionable" (.bool true)).1 } ∧
    b.Reachable exExt ∧ b.aset.alignmentKnown = true ∧ numActionable b.aset = 2 ∧
    (∀ m ≤ 1, (({ b with maxItems := m } : Builder ℚ).setX exExt [0, 0]).2 = .ok () ∧
      admitted (({ b with maxItems := m } : Builder ℚ).buildArgs [0, 0] (b.setX exExt [0, 0]).1.feats) (fun _ => true) = [] ∧
      (({ b with maxItems := m } : Builder ℚ).setX exExt [0, 0]).1.feats = (b.setX exExt [0, 0]).1.feats) ∧
    ∃ d : Builder ℚ, mkBuilder be b.costType b.aset b.coefs b.intercept = .ok d ∧ (d.setX exExt [0, 0]).2 = .ok () ∧
      admitted (d.buildArgs [0, 0] (d.setX exExt [0, 0]).1.feats) (fun _ => true) ≠ [] := by
  have key : ∀ be ct, ∃ b0 : Builder ℚ,
      exBuilderE be ct [[0, 0], [1, 1]] ["a", "b"] (fun A => .ok (A.setElemAttr "b" "actionable" (.bool false)).1)
        [1, 1] (-2) = .ok b0 ∧ (b0.costType = ct ∧
      b0.coefs = [1, 1] ∧ b0.intercept = -2 ∧ b0.nActionable = 1 ∧ b0.maxItems = 1 ∧
      (b0.aset.setElemAttr "b" "actionable" (.bool true)).1.names = b0.aset.names ∧
      (b0.aset.setElemAttr "b" "actionable" (.bool true)).1.alignmentKnown = true ∧
      numActionable (b0.aset.setElemAttr "b" "actionable" (.bool true)).1 = 2 ∧
      (∀ m ≤ 1, (({ b0 with aset := (b0.aset.setElemAttr "b" "actionable" (.bool true)).1, maxItems := m } :
          Builder ℚ).setX exExt [0, 0]).2 = .ok () ∧
        admitted (({ b0 with aset := (b0.aset.setElemAttr "b" "actionable" (.bool true)).1, maxItems := m } :
          Builder ℚ).buildArgs [0, 0] (({ b0 with aset := (b0.aset.setElemAttr "b" "actionable" (.bool true)).1 } :
          Builder ℚ).setX exExt [0, 0]).1.feats) (fun _ => true) = [] ∧
        (({ b0 with aset := (b0.aset.setElemAttr "b" "actionable" (.bool true)).1, maxItems := m } :
          Builder ℚ).setX exExt [0, 0]).1.feats = (({ b0 with aset :=
          (b0.aset.setElemAttr "b" "actionable" (.bool true)).1 } : Builder ℚ).setX exExt [0, 0]).1.feats)) ∧
      ∃ d : Builder ℚ, mkBuilder be b0.costType (b0.aset.setElemAttr "b" "actionable" (.bool true)).1 b0.coefs
          b0.intercept = .ok d ∧ ((d.setX exExt [0, 0]).2 = .ok () ∧
        admitted (d.buildArgs [0, 0] (d.setX exExt [0, 0]).1.feats) (fun _ => true) ≠ []) := by
    intro be ct; cases be <;> cases ct <;> decide +kernel
  obtain ⟨b0, h1, ⟨h2, h3, h4, h5, h5', h6, h7, h8, h9⟩, d, h10, h11, h12⟩ := key be ct
  have hr : b0.Reachable exExt := exBuilderE_reachable h1 fun A A' hA h => by cases h; exact .setElem _ _ _ hA
  exact ⟨b0, hr, h2, h3, h4, h5, h5', _, rfl, .user hr (.setElem _ _ _ hr.ok.aset) h6, h7, h8, h9, d, h10, h11, h12⟩

/-- The full C80 is false: a feature is made actionable after the builder was made.  A new builder finds recourse at
`[0, 0]` (change both features); the old builder accepts the point and reports that there is none,
whatever is assigned to `max_items` before. -/
theorem C80_grown_refuted (be : Backend) (ct : CostType) : ∃ b : Builder ℚ, b.Reachable exExt ∧ b.costType = ct ∧
    b.aset.alignmentKnown = true ∧ ∃ d : Builder ℚ, mkBuilder be b.costType b.aset b.coefs b.intercept = .ok d ∧
    ∃ d1, d.setX exExt [0, 0] = (d1, .ok ()) ∧ ∀ o : Oracle ℚ, o.Exact →
      (∃ d' i', d1.fit o = .ok (d', i') ∧ i'.feasible = true) ∧
      ∀ k : Option Int, ∃ b1, (b.setMaxItems k).1.setX exExt [0, 0] = (b1, .ok ()) ∧
        ∃ b' i, b1.fit o = .ok (b', i) ∧ i.feasible = false := by
  obtain ⟨b0, hr0, h2, h3, h4, h5, h5', b, hb, hr, h7, h8, h9, d, h10, h11, h12⟩ := exGrown be ct
  refine ⟨b, hr, by rw [hb]; exact h2, h7, d, h10, _, Prod.ext rfl h11, fun o ho => ⟨?_, fun k => ?_⟩⟩
  · obtain ⟨b1', feats, g1, -, g2, b', i, g3, g4⟩ := exSolve exExt_order (.mk hr.ok.aset h10) h11 ho
    rw [g1]
    refine ⟨b', i, g3, ?_⟩
    rcases g4 with ⟨h, -⟩ | ⟨κ, -, -, hf, -⟩
    · rw [g2] at h12; exact absurd h h12
    · exact hf
  · have hna : b.nActionable = 1 := by rw [hb]; exact h5
    obtain ⟨m, hm, hk⟩ : ∃ m ≤ 1, (b.setMaxItems k).1 = { b with maxItems := m } := by
      have hmx : b.maxItems = 1 := by rw [hb]; exact h5'
      unfold Builder.setMaxItems
      cases k with
      | none => exact ⟨_, hna.le, rfl⟩
      | some k =>
        dsimp only
        by_cases hk : k < 0
        · rw [if_pos hk]; exact ⟨_, hmx.le, rfl⟩
        · rw [if_neg hk]; exact ⟨_, by rw [hna]; omega, rfl⟩
    obtain ⟨k1, k2, k3⟩ := h9 m hm
    have hrk : (b.setMaxItems k).1.Reachable exExt := .maxItems k hr
    rw [hk] at hrk ⊢
    obtain ⟨b1', feats, g1, -, g2, b', i, g3, g4⟩ := exSolve exExt_order hrk k1 ho
    refine ⟨b1', g1, b', i, g3, ?_⟩
    rw [k3] at g2
    rcases g4 with ⟨-, h⟩ | ⟨κ, hκ, -, hf, -⟩
    · rw [h]; rfl
    · rw [← g2] at hκ
      unfold optChoices at hκ
      rw [k2] at hκ
      simp at hκ

/-- Non-vacuity of C80: a builder for `2 a + b - 2` whose feature `b` is made immutable afterwards.  It meets all
hypotheses, and finds recourse like the new builder. -/
theorem C80_example (be : Backend) (ct : CostType) : ∃ b0 b b1 d d1 : Builder ℚ, b0.Reachable exExt ∧
    b = { b0 with aset := (b0.aset.setElemAttr "b" "actionable" (.bool false)).1 } ∧ numActionable b0.aset = 2 ∧
    b.Reachable exExt ∧ b.aset.alignmentKnown = true ∧ b.minItems ≤ 1 ∧ numActionable b.aset = 1 ∧
    numActionable b.aset ≤ b.maxItems ∧ mkBuilder be b.costType b.aset b.coefs b.intercept = .ok d ∧
    b.setX exExt [0, 0] = (b1, .ok ()) ∧ d.setX exExt [0, 0] = (d1, .ok ()) ∧
    ∀ o : Oracle ℚ, o.Exact → ∃ b' i d' i', b1.fit o = .ok (b', i) ∧ d1.fit o = .ok (d', i') ∧ i.feasible = true ∧
      i'.feasible = true := by
  have key : ∀ be ct, ∃ b0 : Builder ℚ,
      exBuilderE be ct [[0, 0], [1, 1]] ["a", "b"] .ok [2, 1] (-2) = .ok b0 ∧ (numActionable b0.aset = 2 ∧
      (b0.aset.setElemAttr "b" "actionable" (.bool false)).1.names = b0.aset.names ∧
      (b0.aset.setElemAttr "b" "actionable" (.bool false)).1.alignmentKnown = true ∧ b0.minItems ≤ 1 ∧
      numActionable (b0.aset.setElemAttr "b" "actionable" (.bool false)).1 = 1 ∧
      numActionable (b0.aset.setElemAttr "b" "actionable" (.bool false)).1 ≤ b0.maxItems ∧
      (({ b0 with aset := (b0.aset.setElemAttr "b" "actionable" (.bool false)).1 } : Builder ℚ).setX exExt [0, 0]).2
        = .ok () ∧
      admitted (({ b0 with aset := (b0.aset.setElemAttr "b" "actionable" (.bool false)).1 } : Builder ℚ).buildArgs
        [0, 0] (({ b0 with aset := (b0.aset.setElemAttr "b" "actionable" (.bool false)).1 } :
          Builder ℚ).setX exExt [0, 0]).1.feats) (fun _ => true) ≠ []) ∧
      ∃ d : Builder ℚ, mkBuilder be b0.costType (b0.aset.setElemAttr "b" "actionable" (.bool false)).1 b0.coefs
          b0.intercept = .ok d := by
    intro be ct
    have : ∀ be ct, ∃ b0 : Builder ℚ,
      exBuilderE be ct [[0, 0], [1, 1]] ["a", "b"] .ok [2, 1] (-2) = .ok b0 ∧ (numActionable b0.aset = 2 ∧
      (b0.aset.setElemAttr "b" "actionable" (.bool false)).1.names = b0.aset.names ∧
      (b0.aset.setElemAttr "b" "actionable" (.bool false)).1.alignmentKnown = true ∧ b0.minItems ≤ 1 ∧
      numActionable (b0.aset.setElemAttr "b" "actionable" (.bool false)).1 = 1 ∧
      numActionable (b0.aset.setElemAttr "b" "actionable" (.bool false)).1 ≤ b0.maxItems ∧
      (({ b0 with aset := (b0.aset.setElemAttr "b" "actionable" (.bool false)).1 } : Builder ℚ).setX exExt [0, 0]).2
        = .ok () ∧
      admitted (({ b0 with aset := (b0.aset.setElemAttr "b" "actionable" (.bool false)).1 } : Builder ℚ).buildArgs
        [0, 0] (({ b0 with aset := (b0.aset.setElemAttr "b" "actionable" (.bool false)).1 } :
          Builder ℚ).setX exExt [0, 0]).1.feats) (fun _ => true) ≠ []) ∧
      ∃ d : Builder ℚ, mkBuilder be b0.costType (b0.aset.setElemAttr "b" "actionable" (.bool false)).1 b0.coefs
          b0.intercept = .ok d ∧ d.minItems = 0 := by
      intro be ct; cases be <;> cases ct <;> decide +kernel
    obtain ⟨b0, k1, k2, d, k3, -⟩ := this be ct
    exact ⟨b0, k1, k2, d, k3⟩
  obtain ⟨b0, h1, ⟨h2, h3, h4, h5, h6, h7, h8, h9⟩, d, h10⟩ := key be ct
  have hr0 : b0.Reachable exExt := exBuilderE_reachable h1 fun A A' => prep_ok
  have hr := Builder.Reachable.user hr0 (.setElem "b" "actionable" (.bool false) hr0.ok.aset) h3
  have hd : mkBuilder be ({ b0 with aset := (b0.aset.setElemAttr "b" "actionable" (.bool false)).1 } : Builder ℚ).costType
    _ _ _ = .ok d := h10
  have h11 := (C80_accepts (x := [0, 0]) hr h4 hd).trans h8
  refine ⟨b0, _, _, d, _, hr0, rfl, h2, hr, h4, h5, h6, h7, h10, Prod.ext rfl h8, Prod.ext rfl h11, fun o ho => ?_⟩
  obtain ⟨b1', feats, g1, -, g2, b', i, g3, g4⟩ := exSolve exExt_order hr h8 ho
  obtain ⟨d1', feats', e1, -, e2, d', i', e3, -⟩ := exSolve exExt_order (.mk hr.ok.aset h10) h11 ho
  have hi : i.feasible = true := by
    rcases g4 with ⟨h, -⟩ | ⟨κ, -, -, hf, -⟩
    · rw [g2] at h9; exact absurd h h9
    · exact hf
  refine ⟨b', i, d', i', by rw [g1]; exact g3, by rw [e1]; exact e3, hi, ?_⟩
  rw [(C80_follows_partial exExt_order hr h4 h5 h7 hd ho ho g1 e1 .refl .refl g3 e3).1, hi]

end Recourse
