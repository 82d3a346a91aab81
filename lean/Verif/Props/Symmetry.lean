import Verif.Props.Compare

/-!
# The two outcomes are treated alike (C76)
-/

set_option linter.unusedSectionVars false

namespace Recourse

variable {K : Type} [Field K] [LinearOrder K] [IsStrictOrderedRing K] [FloorRing K]

variable {ext : Ext K} {A : ActionSet K} {w x : List K} {t : K} {be be' : Backend} {ct : CostType}
  {o o' : Oracle K} {b b1 b2 b3 d d1 d2 d3 : Builder K} {i i' : Info K}

/-- The action set with the other desired outcome. -/
def ActionSet.opposite (A : ActionSet K) : ActionSet K := { A with yDesired := -A.yDesired }

/-- The feature with the negated coefficient. -/
def Feat.opposite (f : Feat K) : Feat K := { f with coef := -f.coef }

theorem sgn_opp (v : K) : sgn (-v) = -sgn v := by
  unfold sgn
  rcases lt_trichotomy v 0 with h | h | h
  · simp [h, h.le.not_gt]
  · simp [h]
  · simp [h, h.le.not_gt]

theorem isClose_neg (v : K) : isClose (-v) 0 = isClose v 0 := by
  unfold isClose isCloseTol
  rw [sub_zero, sub_zero, abs_neg]

theorem dot_neg (w x : List K) : dot (w.map (- ·)) x = -dot w x := by
  have : w.map (fun v => -v) = w.map ((-1 : K) * ·) := List.map_congr_left fun v _ => by ring
  rw [this, dot_scale]; ring

/-- New sets for the two outcomes differ in nothing else. -/
theorem mkActionSet_opposite {X : List (List K)} {names : List String} {y : Int} {custom : List (String × PyVal K)}
    {dflt st : PyVal K} {A A' : ActionSet K} (hy : y ≠ 0) (h : mkActionSet X names y custom dflt st = .ok A)
    (h' : mkActionSet X names (-y) custom dflt st = .ok A') : A' = A.opposite := by
  unfold mkActionSet at h h'
  simp only [bind_ok_iff, pyAssert_ok_iff, decide_eq_true_eq] at h h'
  obtain ⟨_, -, _, -, _, -, es, h1, _, h2, h⟩ := h
  obtain ⟨_, -, _, -, _, -, es', h1', _, -, h'⟩ := h'
  rw [h1] at h1'
  obtain rfl := Except.ok.inj h1'
  rw [← Except.ok.inj h, ← Except.ok.inj h']
  unfold ActionSet.opposite
  dsimp only
  rcases h2 with rfl | rfl | rfl
  · rfl
  · exact absurd rfl hy
  · rfl

theorem setAlignment_opposite (hy : A.yDesired = 1 ∨ A.yDesired = -1) :
    A.opposite.setAlignment (w.map (- ·)) = (A.setAlignment w).map ActionSet.opposite := by
  unfold ActionSet.setAlignment ActionSet.opposite
  dsimp only
  rw [List.length_map, List.map_map]
  have : ((fun c : K => if 0 < -A.yDesired then sgn c else -sgn c) ∘ fun v => -v) =
      fun c : K => if 0 < A.yDesired then sgn c else -sgn c := by
    funext v
    simp only [Function.comp_apply, sgn_opp]
    rcases hy with h | h <;> simp [h]
  rw [this]
  cases hc : decide (w.length = A.names.length) with
  | false => rfl
  | true => rfl

/-- Builders for the two outcomes. -/
theorem mkBuilder_opposite (hy : A.yDesired = 1 ∨ A.yDesired = -1) (h : mkBuilder be ct A w t = .ok b)
    (h' : mkBuilder be' ct A.opposite (w.map (- ·)) (-t) = .ok d) :
    d.aset = b.aset.opposite ∧ d.varNames = b.varNames ∧ d.coefs = b.coefs.map (- ·) ∧ d.intercept = -b.intercept ∧
      d.costType = b.costType ∧ d.minItems = b.minItems ∧ d.maxItems = b.maxItems := by
  obtain ⟨h1, h2, h3, h4, h5, h6, h7⟩ := mkBuilder_parts h
  obtain ⟨g1, g2, g3, g4, g5, g6, g7⟩ := mkBuilder_parts h'
  have ha : d.aset = b.aset.opposite := by
    have hk : A.opposite.alignmentKnown = A.alignmentKnown := rfl
    rw [hk] at g1
    by_cases hk : A.alignmentKnown = true
    · rw [if_pos hk] at h1 g1
      rw [← Except.ok.inj h1, ← Except.ok.inj g1]
    · rw [if_neg hk] at h1 g1
      rw [setAlignment_opposite hy, h1] at g1
      exact (Except.ok.inj g1).symm
  refine ⟨ha, ?_, by rw [g2, h2], by rw [g3, h3], by rw [g4, h4], by rw [g6, h6], ?_⟩
  · rw [g5, h5, ha]; rfl
  · rw [g7, h7, ha]; rfl

theorem mapM_map_ok {α β γ : Type} (F : α → Except Err β) (G : β → γ) : ∀ l : List α,
    l.mapM (fun a => (F a).map G) = (l.mapM F).map (List.map G)
  | [] => rfl
  | a :: l => by
    rw [List.mapM_cons, List.mapM_cons, mapM_map_ok F G l]
    cases F a with
    | error e => rfl
    | ok v => cases l.mapM F <;> rfl

theorem mkFeat_opposite (hv : d.varNames = b.varNames)
    (hw : d.coefs = b.coefs.map (- ·)) (hct : d.costType = b.costType) (cn : List String) (g : GridEntry K) :
    mkFeat ext d x cn g = (mkFeat ext b x cn g).map Feat.opposite := by
  unfold mkFeat
  rw [hv, hw, hct]
  cases orient ext b.costType g.acts g.pcts with
  | mk a c =>
    dsimp only
    cases dropBugs (a.zip c) with
    | none => rfl
    | some ac =>
      dsimp only
      by_cases hn : g.name ∉ b.varNames
      · rw [if_pos hn, if_pos hn]; rfl
      · rw [if_neg hn, if_neg hn, List.getElem?_map]
        cases b.coefs[b.varNames.idxOf g.name]? with
        | none => rfl
        | some wj =>
          simp only [Option.map_some]
          cases x[b.varNames.idxOf g.name]? with
          | none => rfl
          | some xj =>
            dsimp only
            by_cases hk : g.name ∈ cn ∧ 0 < xj
            · rw [if_pos hk, if_pos hk]
              cases nullIndex (ac.map (·.1)) xj with
              | error e => rfl
              | ok k =>
                simp only [ok_bind]
                by_cases hd : (npDiff (ac.map (·.2))).isEmpty = true
                · rw [if_pos hd, if_pos hd]; rfl
                · rw [if_neg hd, if_neg hd]; rfl
            · rw [if_neg hk, if_neg hk]
              simp only [ok_bind]
              by_cases hd : (npDiff (ac.map (·.2))).isEmpty = true
              · rw [if_pos hd, if_pos hd]; rfl
              · rw [if_neg hd, if_neg hd]; rfl

theorem checkFeat_opposite (y : Int) (cn : List String) (f : Feat K) :
    checkFeat (-y) cn f.opposite = checkFeat y cn f := by
  unfold checkFeat Feat.opposite
  dsimp only
  rw [isClose_neg, sgn_opp, neg_mul_neg]

/-- The features offered are the same, with negated coefficients. -/
theorem buildInfo_opposite (ha : d.aset = b.aset.opposite) (hv : d.varNames = b.varNames)
    (hw : d.coefs = b.coefs.map (- ·)) (hct : d.costType = b.costType) :
    d.buildInfo ext x = (b.buildInfo ext x).map (List.map Feat.opposite) := by
  unfold Builder.buildInfo
  have hg : d.aset.feasibleGrid ext x true true = b.aset.feasibleGrid ext x true true := by
    rw [ha]
    have key : ∀ (ns : List String) (out : List (GridEntry K)),
        b.aset.opposite.overrideLoop ext x true ns out = b.aset.overrideLoop ext x true ns out := by
      intro ns
      induction ns with
      | nil => intro out; rfl
      | cons n ns ih =>
        intro out
        unfold ActionSet.overrideLoop
        rw [show b.aset.opposite.elem? n = b.aset.elem? n from rfl,
          show b.aset.opposite.names = b.aset.names from rfl]
        cases b.aset.elem? n with
        | none => rfl
        | some e =>
          dsimp only
          cases x[b.aset.names.idxOf n]? with
          | none => rfl
          | some xj =>
            dsimp only
            cases gridEntry ext n e xj true false with
            | error e => rfl
            | ok g => simp only [ok_bind]; exact ih _
    unfold ActionSet.feasibleGrid
    simp only [key]
    rfl
  have hc : d.aset.cons = b.aset.cons := by rw [ha]; rfl
  have hy : d.aset.yDesired = -b.aset.yDesired := by rw [ha]; rfl
  rw [hg, hc, hy]
  dsimp only
  cases b.aset.feasibleGrid ext x true true with
  | error e => rfl
  | ok grid =>
    simp only [ok_bind]
    have hm : (mkFeat ext d x b.aset.cons.flatNames) =
        fun g => (mkFeat ext b x b.aset.cons.flatNames g).map Feat.opposite := by
      funext g; exact mkFeat_opposite hv hw hct _ g
    rw [hm, mapM_map_ok]
    cases (grid.filter fun g => decide (2 ≤ g.acts.length)).mapM (mkFeat ext b x b.aset.cons.flatNames) with
    | error e => rfl
    | ok fs =>
      simp only [Except.map, ok_bind]
      have : (fs.map Feat.opposite).all (checkFeat (-b.aset.yDesired) b.aset.cons.flatNames)
          = fs.all (checkFeat b.aset.yDesired b.aset.cons.flatNames) := by
        rw [List.all_map]
        congr 1
        funext f
        exact checkFeat_opposite _ _ f
      rw [this]
      cases fs.all (checkFeat b.aset.yDesired b.aset.cons.flatNames) <;> rfl

theorem opposite_moves (feats : List (Feat K)) : List.Forall₂ SameMoves feats (feats.map Feat.opposite) := by
  induction feats with
  | nil => exact .nil
  | cons f fs ih => exact .cons ⟨rfl, rfl, rfl⟩ ih

theorem opposite_forall₂ (feats : List (Feat K)) :
    List.Forall₂ (fun f f' => f' = { f with coef := (-1 : K) * f.coef }) feats (feats.map Feat.opposite) := by
  induction feats with
  | nil => exact .nil
  | cons f fs ih =>
    refine .cons ?_ ih
    unfold Feat.opposite
    rw [neg_one_mul]

/-- **C76**, acceptance: with the outcome and the signs of the classifier exchanged, the same points are
accepted, and the others are rejected in the same way. -/
theorem C76_accepts (hA : A.Reachable ext) (hb : mkBuilder be ct A w t = .ok b)
    (hd : mkBuilder be' ct A.opposite (w.map (- ·)) (-t) = .ok d) : (d.setX ext x).2 = (b.setX ext x).2 := by
  obtain ⟨h1, h2, h3, h4, h5, h6, h7⟩ := mkBuilder_opposite hA.wf.y hb hd
  rw [setX_status, setX_status, h3, List.length_map, buildInfo_opposite h1 h2 h3 h5]
  by_cases hx : x.length ≠ b.coefs.length
  · rw [if_pos hx, if_pos hx]
  · rw [if_neg hx, if_neg hx]
    cases b.buildInfo ext x with
    | error e => rfl
    | ok feats =>
      simp only [Except.map, ok_bind]
      have hl : ∀ c : SubsetLimit, (limitConsCpx (feats.map Feat.opposite) c) = limitConsCpx feats c := by
        intro c
        unfold limitConsCpx nullNames
        congr 2
        funext j
        rw [List.getElem?_map]
        cases feats[j]? <;> rfl
      have key : ∀ (be : Backend) (p : BuildArgs K), (buildMip be p).map (fun _ => ()) = (buildMip .cpx p).map (fun _ => ()) := by
        intro be p
        cases be with
        | cpx => rfl
        | pymip => exact (buildMip_status p).symm
      have e1 := key d.backend (d.buildArgs x (feats.map Feat.opposite))
      have e2 := key b.backend (b.buildArgs x feats)
      unfold Except.map at e1 e2
      rw [e1, e2]
      unfold buildMip buildCpx Builder.buildArgs
      dsimp only
      rw [h5, show d.aset.cons = b.aset.cons by rw [h1]; rfl]
      have : (limitConsCpx (feats.map Feat.opposite)) = limitConsCpx feats := funext hl
      rw [this]
      cases b.aset.cons.items.mapM (limitConsCpx feats) with
      | error e => rfl
      | ok ls =>
        simp only [ok_bind, List.isEmpty_map]
        by_cases hc : b.costType ≠ .max ∧ feats.isEmpty = true
        · rw [if_pos hc, if_pos hc]
        · rw [if_neg hc, if_neg hc]

theorem opposite_opposite (A : ActionSet K) : A.opposite.opposite = A := by
  unfold ActionSet.opposite
  dsimp only
  rw [neg_neg]

/-- Recourse for one outcome is recourse for the other. -/
theorem opposite_choice (hy : b.aset.yDesired = 1 ∨ b.aset.yDesired = -1) (h1 : d.aset = b.aset.opposite)
    (h3 : d.coefs = b.coefs.map (- ·)) (h4 : d.intercept = -b.intercept)
    (h6 : d.minItems = b.minItems) (h7 : d.maxItems = b.maxItems) (feats : List (Feat K)) (κ : ℕ → ℕ)
    (hκ : ChoiceOK (b.buildArgs x feats) κ) : ChoiceOK (d.buildArgs x (feats.map Feat.opposite)) κ := by
  refine ChoiceOK.transfer (p := b.buildArgs x feats)
    (p' := d.buildArgs x (feats.map Feat.opposite)) (opposite_moves feats) h6 h7
    (by unfold Builder.buildArgs; dsimp only; rw [h1]; rfl) ?_ hκ
  have hs := hκ.score
  unfold Builder.buildArgs Builder.score at hs ⊢
  dsimp only at hs ⊢
  rw [show d.aset.yDesired = -b.aset.yDesired by rw [h1]; rfl, h3, h4, dot_neg, scale_gain (opposite_forall₂ feats)]
  rw [reaches_iff hy] at hs
  rw [reaches_iff (by rcases hy with h | h <;> simp [h])]
  push_cast
  linarith

/-- **C76.**  The two outcomes are treated alike: an action set for the outcome `y`, a classifier `(w, t)` and a
point get the same answer as the set for the outcome `-y` and the classifier `(-w, -t)`: the same points are
accepted (`C76_accepts`), there is recourse for the same points, and the objective (for total and local costs,
the cost reported) is the same.  Any back ends, exact solvers and refits. -/
theorem C76_symmetric (hso : SetOrderOk ext) (hA : A.Reachable ext) (hA' : A.opposite.Reachable ext)
    (hb : mkBuilder be ct A w t = .ok b) (hd : mkBuilder be' ct A.opposite (w.map (- ·)) (-t) = .ok d)
    (ho : o.Exact) (ho' : o'.Exact) (hx : b.setX ext x = (b1, .ok ())) (hx' : d.setX ext x = (d1, .ok ()))
    (hr : b1.Refitted o b2) (hr' : d1.Refitted o' d2)
    (hf : b2.fit o = .ok (b3, i)) (hf' : d2.fit o' = .ok (d3, i')) :
    i'.feasible = i.feasible ∧ i'.upperbound = i.upperbound ∧ (ct ≠ .max → i'.cost = i.cost) := by
  obtain ⟨h1, h2, h3, h4, h5, h6, h7⟩ := mkBuilder_opposite hA.wf.y hb hd
  have rb : b.Reachable ext := .mk hA hb
  have rd : d.Reachable ext := .mk hA' hd
  obtain ⟨feats, a1, a2, a3⟩ := Posed.setX hso rb.ok hx
  obtain ⟨feats', c1, c2, c3⟩ := Posed.setX hso rd.ok hx'
  have hfe : feats' = feats.map Feat.opposite := by
    rw [buildInfo_opposite h1 h2 h3 h5, a1] at c1
    exact (Except.ok.inj c1).symm
  subst hfe
  have hy : b.aset.yDesired = 1 ∨ b.aset.yDesired = -1 := rb.ok.aset.wf.y
  have fw : ∀ κ, ChoiceOK (b.buildArgs x feats) κ → ChoiceOK (d.buildArgs x (feats.map Feat.opposite)) κ :=
    fun κ => opposite_choice hy h1 h3 h4 h6 h7 feats κ
  have bw : ∀ κ, ChoiceOK (d.buildArgs x (feats.map Feat.opposite)) κ → ChoiceOK (b.buildArgs x feats) κ := by
    intro κ hκ
    have := opposite_choice (b := d) (d := b) (x := x) rd.ok.aset.wf.y (by rw [h1, opposite_opposite])
      (by rw [h3, List.map_map]; conv_lhs => rw [← List.map_id b.coefs]
          exact List.map_congr_left fun v _ => by simp)
      (by rw [h4, neg_neg]) h6.symm h7.symm _ κ hκ
    rwa [List.map_map, show Feat.opposite ∘ Feat.opposite = (id : Feat K → Feat K) from ?_, List.map_id] at this
    funext f
    simp [Feat.opposite]
  obtain ⟨-, -, rfl⟩ := fit_ok hf
  obtain ⟨-, -, rfl⟩ := fit_ok hf'
  have pb := a3.refitted hr
  have pd := c3.refitted hr'
  have e1 : (b.buildArgs x feats).costType = ct := (mkBuilder_parts hb).2.2.2.1
  have e2 : (d.buildArgs x (feats.map Feat.opposite)).costType = ct := (mkBuilder_parts hd).2.2.2.1
  have hobj := scale_obj (opposite_forall₂ feats)
  cases hfi : (b2.solve o).solutionInfo.feasible with
  | true =>
    refine ⟨posed_feasible a2 c2 pb pd ho.1 ho' fw hfi, ?_⟩
    have hfi' := posed_feasible a2 c2 pb pd ho.1 ho' fw hfi
    obtain ⟨u, u', q1, q2, q3, q4⟩ := posed_bound a2 c2 pb pd ho ho' fw (by rw [e1, e2]) (fun κ => hobj _ κ) hfi
    obtain ⟨v, v', s1, s2, s3, s4⟩ := posed_bound c2 a2 pd pb ho' ho bw (by rw [e1, e2])
      (fun κ => (hobj _ κ).symm) hfi'
    rw [q2] at s1; rw [q1] at s2
    cases s1; cases s2
    have : u' = u := le_antisymm q3 s3
    subst this
    refine ⟨by rw [q1, q2], fun hm => ?_⟩
    obtain ⟨z1, z2⟩ := q4 (by rw [e1]; exact hm)
    rw [z1, z2]
  | false =>
    have hfi' : (d2.solve o').solutionInfo.feasible = false := by
      cases hc : (d2.solve o').solutionInfo.feasible with
      | false => rfl
      | true => rw [posed_feasible c2 a2 pd pb ho'.1 ho bw hc] at hfi; cases hfi
    refine ⟨hfi', ?_⟩
    have : ∀ {n be p P} {b : Builder K} {o : Oracle K}, FeatsOK n p.feats → Posed n be p P b → o.Sound →
        (b.solve o).solutionInfo.feasible = false → (b.solve o).solutionInfo = emptyInfo := by
      intro n be p P b o g1 g2 g3 g4
      rcases g2.solved g1 g3 with ⟨-, he, -⟩ | ⟨σ, κ, -, -, -, -, hr, -⟩
      · exact he
      · rw [hr.feasible] at g4; cases g4
    rw [this a2 pb ho.1 hfi, this c2 pd ho'.1 hfi']
    exact ⟨rfl, fun _ => rfl⟩

/-- Non-vacuity of `C76_symmetric`: two new action sets for the two outcomes. -/
theorem C76_example (be : Backend) (ct : CostType) : ∃ (A : ActionSet ℚ) (b d b1 d1 : Builder ℚ),
    A.Reachable exExt ∧ A.opposite.Reachable exExt ∧ mkBuilder be ct A [1, -2] (-1) = .ok b ∧
    mkBuilder be ct A.opposite ([1, -2].map (- ·)) (-(-1)) = .ok d ∧
    b.setX exExt [0, 1] = (b1, .ok ()) ∧ d.setX exExt [0, 1] = (d1, .ok ()) ∧
    ∀ o : Oracle ℚ, o.Exact → ∃ b' i d' i', b1.fit o = .ok (b', i) ∧ d1.fit o = .ok (d', i') ∧ i.feasible = true ∧
      i'.feasible = true := by
  have key : ∀ be ct, ∃ A : ActionSet ℚ,
      mkActionSet [[0, 0], [1, 1]] ["a", "b"] 1 [] defaultBounds (.str "relative") = .ok A ∧
      ∃ A' : ActionSet ℚ, mkActionSet [[0, 0], [1, 1]] ["a", "b"] (-1) [] defaultBounds (.str "relative") = .ok A' ∧
      ∃ b : Builder ℚ, mkBuilder be ct A [1, -2] (-1) = .ok b ∧
      ∃ d : Builder ℚ, mkBuilder be ct A' ([1, -2].map (- ·)) (-(-1)) = .ok d ∧
        ((b.setX exExt [0, 1]).2 = .ok () ∧
        admitted (b.buildArgs [0, 1] (b.setX exExt [0, 1]).1.feats) (fun _ => true) ≠ []) := by
    intro be ct; cases be <;> cases ct <;> decide +kernel
  obtain ⟨A, h1, A', h2, b, h3, d, h4, h5, h6⟩ := key be ct
  have hAA : A' = A.opposite := mkActionSet_opposite (by decide) h1 h2
  subst hAA
  have hA : A.Reachable exExt := .mk h1
  have hA' : A.opposite.Reachable exExt := .mk h2
  obtain ⟨b1, hx⟩ : ∃ b1, b.setX exExt [0, 1] = (b1, .ok ()) := ⟨_, Prod.ext rfl h5⟩
  obtain ⟨d1, hx'⟩ : ∃ d1, d.setX exExt [0, 1] = (d1, .ok ()) :=
    ⟨_, Prod.ext rfl ((C76_accepts hA h3 h4).trans h5)⟩
  refine ⟨A, b, d, b1, d1, hA, hA', h3, h4, hx, hx', fun o ho => ?_⟩
  obtain ⟨b', i, hf, hi⟩ : ∃ b' i, b1.fit o = .ok (b', i) ∧ i.feasible = true := by
    obtain ⟨b1', feats, g1, -, g2, b', i, g3, g4⟩ := exSolve exExt_order (.mk hA h3) h5 ho
    rw [g1] at hx
    obtain ⟨rfl, -⟩ := Prod.mk.inj hx
    refine ⟨b', i, g3, ?_⟩
    rcases g4 with ⟨h, -⟩ | ⟨κ, -, -, hf, -⟩
    · rw [g2] at h6; exact absurd h h6
    · exact hf
  obtain ⟨feats, g1, g2, g3⟩ := Posed.setX exExt_order (Builder.Reachable.mk hA' h4).ok hx'
  obtain ⟨m, hm, -⟩ := g3.mip
  have hf' : d1.fit o = .ok (d1.solve o, (d1.solve o).solutionInfo) := by unfold Builder.fit; rw [hm]
  refine ⟨b', i, _, _, hf, hf', hi, ?_⟩
  rw [(C76_symmetric exExt_order hA hA' h3 h4 ho ho hx hx' .refl .refl hf hf').1, hi]

end Recourse
