import Verif.Props.FlipUse

/-!
# Flipsets: examples and refutations
-/

set_option linter.unusedSectionVars false

namespace Recourse

section
variable {K : Type} [Field K] [LinearOrder K] [IsStrictOrderedRing K] [FloorRing K]

/-- The costs of an action are determined. -/
theorem ActionCosts.unique {ext : Ext K} {ct : CostType} {A : ActionSet K} {x a cs cs' : List K}
    (hx : x.length = A.elems.length) (ha : a.length = x.length)
    (h : ActionCosts ext ct A x a cs) (h' : ActionCosts ext ct A x a cs') : cs = cs' := by
  apply List.ext_getElem?
  intro j
  by_cases hj : j < x.length
  · have g1 := List.getElem?_eq_getElem hj
    have g2 : j < A.elems.length := by omega
    have g2 := List.getElem?_eq_getElem g2
    have g3 : j < a.length := by omega
    have g3 := List.getElem?_eq_getElem g3
    have g4 : j < cs.length := by rw [h.1]; exact hj
    have g4 := List.getElem?_eq_getElem g4
    have g5 : j < cs'.length := by rw [h'.1]; exact hj
    have g5 := List.getElem?_eq_getElem g5
    obtain ⟨k1, k2⟩ := h.2 j _ _ _ _ g2 g1 g3 g4
    obtain ⟨k1', k2'⟩ := h'.2 j _ _ _ _ g2 g1 g3 g5
    rw [g4, g5]
    by_cases h0 : a[j]'(by omega) = 0
    · rw [k1 h0, k1' h0]
    · obtain ⟨p, q, e1, e2, e3⟩ := k2 h0
      obtain ⟨p', q', e1', e2', e3'⟩ := k2' h0
      rw [e1] at e1'; cases e1'
      rw [e2] at e2'; cases e2'
      rw [e3, e3']
  · rw [List.getElem?_eq_none (by rw [h.1]; omega), List.getElem?_eq_none (by rw [h'.1]; omega)]

/-- The first populate of a flipset, in terms of the builder it creates. -/
theorem first_populate {ext : Ext K} (hso : SetOrderOk ext) {o : Oracle K} (ho : o.Sound) {be : Backend}
    {ct : CostType} {A : ActionSet K} {x w : List K} {t : K} {c : Builder K} (hA : A.Reachable ext)
    (hc : mkBuilder be ct A w t = .ok c) (hx : (c.setX ext x).2 = .ok ())
    (hne : ∀ a, IsRecourse A w t x a 1 (numActionable A) → dot w x + t ≠ ((sgn (dot w (vadd x a) + t) : Int) : K))
    (et : EnumType) (total : Option ℕ) (htot : ∀ k, total = some k → 1 ≤ k) :
    ∃ (fs' : Flipset K) (b1 b' : Builder K) (l : List (Info K)), c.setX ext x = (b1, .ok ()) ∧
      (∀ fuel, maxEnum et (numActionable A) < fuel →
        (mkFlipset be A x w t none).populate ext o fuel total et ct = some (fs', .ok ()) ∧
        b1.populate o et fuel total = .ok (some (b', l))) ∧
      fs'.items = l ∧ fs'.builder = some b' := by
  obtain ⟨b1, hs⟩ : ∃ b1, c.setX ext x = (b1, .ok ()) := ⟨_, Prod.ext rfl hx⟩
  obtain ⟨fs', h1⟩ := populate_succeeds hso ho hA hne .refl (Or.inr ⟨c, b1, hc, hs⟩) et total htot
  have hcr : c.Reachable ext := Builder.Reachable.mk hA hc
  obtain ⟨b', l, h2, -, -⟩ := C41_terminates hso ho hcr hs .refl et total htot
  have hna : numActionable c.aset = numActionable A := ((mkBuilder_offers hA hc).1).numActionable
  rw [hna] at h2
  refine ⟨fs', b1, b', l, hs, fun fuel hf => ⟨h1 fuel hf, h2 fuel hf⟩, ?_⟩
  have := h1 _ (Nat.lt_succ_self _)
  obtain ⟨b0, b, l', k1, k2, k3, k4⟩ := (C52_atomic (.mk be A x w t none) this).2.1 rfl
  rcases k4 with k4 | ⟨-, c', k5, k6⟩
  · cases k4
  · have k5 : mkBuilder be ct A w t = .ok c' := k5
    have k6 : c'.setX ext x = (b0, .ok ()) := k6
    rw [hc] at k5; cases k5
    rw [hs] at k6; cases k6
    rw [h2 _ (Nat.lt_succ_self _)] at k1; cases k1
    exact ⟨k3, k2⟩

end

/-- `ActionSet(X, names)`. -/
def exSet (X : List (List ℚ)) (names : List String) : Except Err (ActionSet ℚ) :=
  mkActionSet X names 1 [] defaultBounds (.str "relative")

/-- Non-vacuity of C49, C50, C52, C53, C58, C59 and `C51_flipped_partial`: two binary features, `w = (1, 2)`,
`t = -1`, at the denied point `(0, 0)`.  For every exact solver `populate()` succeeds and stores the three
recourse actions; the table has three rows. -/
theorem C49_example (be : Backend) (ct : CostType) : ∃ (A : ActionSet ℚ) (c : Builder ℚ), A.Reachable exExt ∧
    (A.yDesired : ℚ) * (dot [1, 2] [0, 0] + -1) < 0 ∧
    mkBuilder be ct A [1, 2] (-1) = .ok c ∧ Regular exExt c [0, 0] ∧ Denied c [0, 0] ∧
    (c.setX exExt [0, 0]).2 = .ok () ∧ numActionable A = 2 ∧
    ∀ o : Oracle ℚ, o.Exact → ∃ fs' : Flipset ℚ,
      (mkFlipset be A [0, 0] [1, 2] (-1) none).populate exExt o 5 none .distinctSubsets ct = some (fs', .ok ()) ∧
      (mkFlipset be A [0, 0] [1, 2] (-1) none).Used exExt o fs' ∧
      fs'.Reachable exExt (some [.size, .cost, .scoreNew]) ∧
      (∀ a ∈ [[1, 0], [0, 1], [1, 1]], ∃ i ∈ fs'.items, i.actions = some a) ∧ 3 ≤ fs'.rows.length := by
  have key : ∀ be ct, ∃ A : ActionSet ℚ, exSet [[0, 0], [1, 1]] ["a", "b"] = .ok A ∧
      (A.yDesired : ℚ) * (dot [1, 2] [0, 0] + -1) < 0 ∧ numActionable A = 2 ∧
      ∃ b0 : Builder ℚ, mkBuilder be ct A [1, 2] (-1) = .ok b0 ∧
      regularB exExt b0 [0, 0] = true ∧ Denied b0 [0, 0] ∧
      (b0.setX exExt [0, 0]).2 = .ok () ∧
      ∀ a ∈ [[1, 0], [0, 1], [1, 1]],
      ∃ κ ∈ admitted (b0.buildArgs [0, 0] (b0.setX exExt [0, 0]).1.feats) (fun _ => true),
        (actVec b0.coefs.length (b0.setX exExt [0, 0]).1.feats κ) = a ∧
        ∀ κ' ∈ admitted (b0.buildArgs [0, 0] (b0.setX exExt [0, 0]).1.feats) (fun _ => true),
          (cutByB .distinctSubsets b0.backend (b0.setX exExt [0, 0]).1.feats κ' κ = false →
            actVec b0.coefs.length (b0.setX exExt [0, 0]).1.feats κ' = a) := by
    intro be ct; cases be <;> cases ct <;> decide +kernel
  obtain ⟨A, hA, hd, hna, c, hc, hrg, hdn, hx, hk⟩ := key be ct
  have hAr : A.Reachable exExt := .mk hA
  have hr : c.Reachable exExt := .mk hAr hc
  refine ⟨A, c, hAr, hd, hc, regular_of_b hr.ok exExt_pos hrg, hdn, hx, hna, fun o ho => ?_⟩
  obtain ⟨fs', b1, b', l, h1, h2, h3, h4⟩ := first_populate exExt_order ho.1 hAr hc hx
    (fun _ h2 => (denied_differs hAr.wf.y hd h2.score).2) .distinctSubsets none (by simp)
  obtain ⟨p1, p2⟩ := h2 5 (by rw [hna]; decide)
  have hreach : fs'.Reachable exExt (some [.size, .cost, .scoreNew]) := .populate (.mk _ _ _ _ _ _) p1
  obtain ⟨b1', feats, g1, g0, g2, b'', t, g3, ht, -, -, -, hend⟩ :=
    exPopulate exExt_order hr hx ho .distinctSubsets none (by simp)
  rw [h1] at g1; cases g1
  have hna' : numActionable c.aset = 2 := by rw [((mkBuilder_offers hAr hc).1).numActionable, hna]
  have g4 := g3 5 (by rw [hna']; decide)
  rw [p2] at g4; cases g4
  rcases hend with ⟨k, hk, -⟩ | hend
  · cases hk
  rw [g2] at hk
  have main : ∀ a ∈ [[1, 0], [0, 1], [1, 1]], ∃ i ∈ fs'.items, i.actions = some a := by
    intro a ha
    obtain ⟨κ, hκ, rfl, huniq⟩ := hk a ha
    obtain ⟨q, hq, κ', hκ', -, hact, hcut⟩ := hend κ hκ
    exact ⟨q.2, by rw [h3]; exact List.mem_map_of_mem hq, by rw [hact, huniq κ' hκ' hcut]⟩
  refine ⟨fs', p1, .populate .refl p1, hreach, main, ?_⟩
  rw [← (C49_table hreach).2.2]
  unfold Flipset.len
  have hsub : ({some [1, 0], some [0, 1], some [1, 1]} : Finset (Option (List ℚ))) ⊆
      (fs'.items.map (·.actions)).toFinset := by
    intro a ha
    rw [List.mem_toFinset, List.mem_map]
    simp only [Finset.mem_insert, Finset.mem_singleton] at ha
    rcases ha with rfl | rfl | rfl
    · exact main _ (by simp)
    · exact main _ (by simp)
    · exact main _ (by simp)
  have := (Finset.card_le_card hsub).trans (List.toFinset_card_le _)
  rw [List.length_map] at this
  exact this

/-- The full C51 is false: one binary feature, `w = 1`, `t = 2`, at the approved point 0.  For every exact
solver `populate()` stores the action `+1` with `flipped = True`, although the prediction is 1 before and
after. -/
theorem C51_flipped_refuted (be : Backend) (ct : CostType) : ∃ A : ActionSet ℚ, A.Reachable exExt ∧
    ∀ o : Oracle ℚ, o.Exact → ∃ fs' : Flipset ℚ,
      (mkFlipset be A [0] [1] 2 none).populate exExt o 3 none .distinctSubsets ct = some (fs', .ok ()) ∧
      fs'.rows ≠ [] ∧ ∀ r ∈ fs'.rows, r.flipped = true ∧ r.yhatNew = sgn (dot [1] [0] + 2 : ℚ) := by
  have key : ∀ be ct, ∃ A : ActionSet ℚ, exSet [[0], [1]] ["a"] = .ok A ∧ A.yDesired = 1 ∧ numActionable A = 1 ∧
      ∃ b0 : Builder ℚ, mkBuilder be ct A [1] 2 = .ok b0 ∧ (b0.setX exExt [0]).2 = .ok () ∧
      admitted (b0.buildArgs [0] (b0.setX exExt [0]).1.feats) (fun _ => true) ≠ [] ∧
      ∀ κ ∈ admitted (b0.buildArgs [0] (b0.setX exExt [0]).1.feats) (fun _ => true),
        actVec b0.coefs.length (b0.setX exExt [0]).1.feats κ = [1] := by
    intro be ct; cases be <;> cases ct <;> decide +kernel
  obtain ⟨A, hA, hy, hna, c, hc, hx, hne, hk⟩ := key be ct
  have hAr : A.Reachable exExt := .mk hA
  have hr : c.Reachable exExt := .mk hAr hc
  refine ⟨A, hAr, fun o ho => ?_⟩
  obtain ⟨fs', b1, b', l, h1, h2, h3, h4⟩ := first_populate (x := [0]) exExt_order ho.1 hAr hc hx
    (by
      intro a _
      have : (dot [1] [0] + 2 : ℚ) = 2 := by decide +kernel
      rw [this]
      unfold sgn
      split_ifs <;> norm_num) .distinctSubsets none (by simp)
  obtain ⟨p1, p2⟩ := h2 3 (by rw [hna]; decide)
  have hreach : fs'.Reachable exExt (some [.size, .cost, .scoreNew]) := .populate (.mk _ _ _ _ _ _) p1
  obtain ⟨b1', feats, g1, g0, g2, b'', t, g3, ht, -, hmem, -, hend⟩ :=
    exPopulate exExt_order hr hx ho .distinctSubsets none (by simp)
  rw [h1] at g1; cases g1
  have hna' : numActionable c.aset = 1 := by rw [((mkBuilder_offers hAr hc).1).numActionable, hna]
  have g4 := g3 3 (by rw [hna']; decide)
  rw [p2] at g4; cases g4
  rcases hend with ⟨k, hk, -⟩ | hend
  · cases hk
  rw [g2] at hk hne
  refine ⟨fs', p1, ?_, fun r hr' => ⟨C51_constant hreach r hr', ?_⟩⟩
  · obtain ⟨κ, hκ⟩ := List.exists_mem_of_ne_nil _ hne
    obtain ⟨q, hq, -⟩ := hend κ hκ
    have hl := (C49_table hreach).2.2
    intro h0
    rw [h0] at hl
    unfold Flipset.len at hl
    rw [h3, List.length_map] at hl
    have := List.length_pos_of_mem hq
    simp at hl
    rw [hl] at this
    exact absurd this (by simp)
  · obtain ⟨i, hi, he⟩ := hreach.inv.row hr'
    rw [h3] at hi
    obtain ⟨q, hq, rfl⟩ := List.mem_map.mp hi
    obtain ⟨κ, hκ, -, hact⟩ := hmem q hq
    rw [hk κ hκ] at hact
    have hrun := (Flipset.Used.populate .refl p1).run exExt_order ho.1 hAr
    have e1 : r.yhatNew = (fs'.itemRow 0 q.2).yhatNew := by rw [← he]; rfl
    rw [e1]
    unfold Flipset.itemRow Flipset.predict Flipset.score
    dsimp only
    rw [hact, hrun.point, hrun.coefs, hrun.intercept]
    decide +kernel

/-- The full C53 is false: two binary features, `w = (1, 1)`, `t = -1`, at the denied point `(0, 0)`.  For
every exact solver `populate(1, cost_type = "total")` followed by `populate(cost_type = "max")` stores, in
the second call, the action `(1, 1)` with a cost above the costs for cost type `max` of both changes. -/
theorem C53_later_refuted (be : Backend) : ∃ A : ActionSet ℚ, A.Reachable exExt ∧
    ∀ o : Oracle ℚ, o.Exact → ∃ (fs1 fs2 : Flipset ℚ) (i : Info ℚ) (v : ℚ),
      (mkFlipset be A [0, 0] [1, 1] (-1) none).populate exExt o 5 (some 1) .distinctSubsets .total
        = some (fs1, .ok ()) ∧
      fs1.populate exExt o 5 none .distinctSubsets .max = some (fs2, .ok ()) ∧
      (∃ l, fs2.items = fs1.items ++ l ∧ i ∈ l) ∧ i.actions = some [1, 1] ∧ i.cost = .fin v ∧
      (∃ cs, ActionCosts exExt .max A [0, 0] [1, 1] cs) ∧
      ∀ cs, ActionCosts exExt .max A [0, 0] [1, 1] cs → ∀ u ∈ cs, u < v := by
  have key : ∀ be, ∃ A : ActionSet ℚ, exSet [[0, 0], [1, 1]] ["a", "b"] = .ok A ∧
      (A.yDesired : ℚ) * (dot [1, 1] [0, 0] + -1) < 0 ∧ numActionable A = 2 ∧ A.elems.length = 2 ∧
      ∃ b0 : Builder ℚ, mkBuilder be .total A [1, 1] (-1) = .ok b0 ∧
      regularB exExt b0 [0, 0] = true ∧ b0.costType = .total ∧
      (b0.setX exExt [0, 0]).2 = .ok () ∧
      ∃ κ ∈ admitted (b0.buildArgs [0, 0] (b0.setX exExt [0, 0]).1.feats) (fun _ => true),
        (actVec b0.coefs.length (b0.setX exExt [0, 0]).1.feats κ) = [1, 1] ∧
        (∀ u ∈ cstVec b0.coefs.length (b0.setX exExt [0, 0]).1.feats κ,
          u < choiceSum (b0.setX exExt [0, 0]).1.feats κ) ∧
        (∃ κ' ∈ admitted (b0.buildArgs [0, 0] (b0.setX exExt [0, 0]).1.feats) (fun _ => true),
          choiceObj .total (b0.setX exExt [0, 0]).1.feats κ' < choiceObj .total (b0.setX exExt [0, 0]).1.feats κ) ∧
        ∀ κ' ∈ admitted (b0.buildArgs [0, 0] (b0.setX exExt [0, 0]).1.feats) (fun _ => true),
          cutByB .distinctSubsets be (b0.setX exExt [0, 0]).1.feats κ' κ = false →
            (actVec b0.coefs.length (b0.setX exExt [0, 0]).1.feats κ' = [1, 1] ∧
            choiceSum (b0.setX exExt [0, 0]).1.feats κ' = choiceSum (b0.setX exExt [0, 0]).1.feats κ) := by
    intro be; cases be <;> decide +kernel
  obtain ⟨A, hA, hd, hna, hlen, c, hc, hrg, hct, hx, κ, hκ, hka, hku, ⟨κ1, hκ1, hlt⟩, huniq⟩ := key be
  have hAr : A.Reachable exExt := .mk hA
  have hr : c.Reachable exExt := .mk hAr hc
  have hoff := mkBuilder_offers hAr hc
  refine ⟨A, hAr, fun o ho => ?_⟩
  have hne := fun a (h2 : IsRecourse A [1, 1] (-1) [0, 0] a 1 (numActionable A)) =>
    (denied_differs hAr.wf.y hd h2.score).2
  obtain ⟨fs1, b1, b', l, h1, h2, h3, h4⟩ := first_populate exExt_order ho.1 hAr hc hx hne
    .distinctSubsets (some 1) (by simp)
  obtain ⟨p1, p2⟩ := h2 5 (by rw [hna]; decide)
  obtain ⟨b1', feats, g1, g0, g2, b'', t, g3, ht, hpo, -, hle, -⟩ :=
    exPopulate exExt_order hr hx ho .distinctSubsets (some 1) (by simp)
  rw [h1] at g1; cases g1
  have hna' : numActionable c.aset = 2 := by rw [hoff.1.numActionable, hna]
  have g4 := g3 5 (by rw [hna']; decide)
  rw [p2] at g4; cases g4
  rw [g2] at hκ hka hku hκ1 hlt huniq
  have hok := buildInfo_ok exExt_order hr.ok g0
  -- the second call
  obtain ⟨fs2, q1⟩ := populate_succeeds (ct := .max) exExt_order ho.1 hAr hne (.populate .refl p1) (Or.inl ⟨_, h4⟩)
    .distinctSubsets none (by simp)
  have q1 := q1 5 (by rw [hna]; decide)
  obtain ⟨b0', b2, l2, r1, -, r3, r4⟩ := (C52_atomic (.populate (.mk _ _ _ _ _ _) p1) q1).2.1 rfl
  rcases r4 with r4 | ⟨r4, -⟩
  swap
  · rw [h4] at r4; cases r4
  rw [h4] at r4; cases r4
  obtain ⟨t2, he2, ht2, -, -, hend⟩ := hpo.popLoop hok ho.1 (populate_ok r1).2.2
  rw [List.nil_append] at he2
  rcases hend with ⟨k, hk, -⟩ | hend
  · cases hk
  have hκok := (admitted_ok hκ).1
  have hleft : Left .distinctSubsets c.backend (c.buildArgs [0, 0] feats) (fun _ => True) t κ := by
    refine ⟨trivial, fun q hq => ?_⟩
    by_contra hnc
    -- the first item would be the dearer one
    obtain ⟨k1, -, -⟩ := ht.mem q hq
    have ht1 : t = [q] := by
      have := hle 1 rfl
      match t, hq, this with
      | [q'], hq, _ => rw [List.mem_singleton.mp hq]
      | _ :: _ :: _, _, this => simp at this
    have hbest := (ht.best ho.2 q hq).2.2 κ1 (admitted_ok hκ1).1 trivial (by
      intro r hr' hcc
      rw [ht1] at hr'
      rw [List.mem_singleton.mp hr'] at hcc
      exfalso
      obtain ⟨κ2, hκ2, hag⟩ := k1.admitted hok
      have e1 := cutByB_iff.mpr ((CutBy.agree hag hag).mp hcc)
      revert e1
      cases hbe : c.backend <;> simp [cutByB])
    obtain ⟨κ2, hκ2, hag⟩ := k1.admitted hok
    have hnc' : cutByB .distinctSubsets be feats κ2 κ = false := by
      have hag' : Agree feats q.1 κ2 := hag
      rw [← Bool.not_eq_true, cutByB_iff, ← CutBy.agree hag' (fun f hf => rfl)]
      rw [hoff.2.2.2.2.1] at hnc
      exact hnc
    have e2 := (huniq κ2 hκ2 hnc').2
    have e3 : choiceObj .total feats κ2 = choiceObj .total feats κ := e2
    rw [hag.obj] at hbest
    have e4 : (c.buildArgs [0, 0] feats).costType = .total := hct
    rw [e4] at hbest
    have hbest : choiceObj .total feats κ2 ≤ choiceObj .total feats κ1 := hbest
    rw [e3] at hbest
    exact absurd hlt (not_lt.mpr hbest)
  obtain ⟨q, hq, hnc⟩ : ∃ q ∈ t2, ¬ CutBy .distinctSubsets c.backend feats q.1 κ := by
    by_contra hall
    push Not at hall
    exact hend ho.2 ⟨κ, hκok, hleft, hall⟩
  obtain ⟨k1, -, k3⟩ := ht2.mem q hq
  obtain ⟨κ2, hκ2, hag⟩ := k1.admitted hok
  have hag' : Agree feats q.1 κ2 := hag
  have hnc' : cutByB .distinctSubsets be feats κ2 κ = false := by
    rw [← Bool.not_eq_true, cutByB_iff, ← CutBy.agree hag' (fun f hf => rfl)]
    rw [hoff.2.2.2.2.1] at hnc
    exact hnc
  obtain ⟨u1, u2⟩ := huniq κ2 hκ2 hnc'
  have hact : q.2.actions = some [1, 1] := by
    rw [k3.actions, ← u1]
    unfold actVec
    rw [List.map_congr_left fun f hf => by rw [hag.act hf]]
    rfl
  have hcost : q.2.cost = .fin (choiceSum feats κ) := by
    rw [(k3.sum (by show c.costType ≠ _; rw [hct]; decide)).1, ← u2]
    unfold choiceSum
    rw [List.map_congr_left fun f hf => by rw [hag.cst hf]]
    rfl
  have hreg := regular_of_b hr.ok exExt_pos hrg
  have hcs := regular_actionCosts exExt_order hr.ok exExt_log g0 hreg hκok.lt
  rw [hct, hka] at hcs
  have hcs := hoff.1.actionCosts.mp hcs
  have hmx : ∀ cs, ActionCosts exExt .max A [0, 0] [1, 1] cs ↔ ActionCosts exExt .total A [0, 0] [1, 1] cs :=
    fun cs => Iff.rfl
  refine ⟨fs1, fs2, q.2, _, p1, q1, ⟨l2, r3, ?_⟩, hact, hcost, ⟨_, (hmx _).mpr hcs⟩, ?_⟩
  · rw [he2]; exact List.mem_map_of_mem hq
  · intro cs h
    have hlen' : ([0, 0] : List ℚ).length = A.elems.length := by rw [hlen]; rfl
    have hl2 : ([1, 1] : List ℚ).length = ([0, 0] : List ℚ).length := rfl
    rw [ActionCosts.unique (A := A) hlen' hl2 ((hmx cs).mp h) hcs]
    exact hku

end Recourse
