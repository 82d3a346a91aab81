import Verif.Props.Progress
import Verif.Props.Compare
import Verif.Lemmas.Columns

/-!
# C119: circumstances that cannot be changed matter only through the score
-/

set_option linter.unusedSectionVars false

namespace Recourse

variable {K : Type} [Field K] [LinearOrder K] [IsStrictOrderedRing K] [FloorRing K]

variable {ext : Ext K} {o o' : Oracle K} {b b0 b1 b2 b3 d0 d1 d2 d3 : Builder K} {x x' : List K} {i i' : Info K}
  {A : ActionSet K}

/-- The two points have equally many features and agree at all actionable ones. -/
def SameActionable (A : ActionSet K) (x x' : List K) : Prop :=
  x'.length = x.length ∧ ∀ (j : ℕ) (e : Elem K), A.elems[j]? = some e → e.actionable = true → x'[j]? = x[j]?

theorem SameActionable.symm (h : SameActionable A x x') : SameActionable A x' x :=
  ⟨h.1.symm, fun j e he ha => (h.2 j e he ha).symm⟩

/-- Two grid entries are equal, belonging to equal values, or both of a feature that cannot change. -/
def SameEntry (A : ActionSet K) (x x' : List K) (g g' : GridEntry K) : Prop :=
  g'.name = g.name ∧ ((g' = g ∧ x'[A.names.idxOf g.name]? = x[A.names.idxOf g.name]?) ∨
    (g.acts.length < 2 ∧ g'.acts.length < 2))

theorem dirFilter_length (d : Int) (v : K) (l : List K) : (dirFilter d v l).length ≤ l.length := by
  unfold dirFilter
  split_ifs
  · exact List.length_filter_le _ _
  · exact List.length_filter_le _ _
  · exact le_rfl

theorem feasX_frozen {e : Elem K} (h : e.actionable = false) (v : K) (drop : Bool) : (e.feasX v drop).length < 2 := by
  have hb : e.baseX v = [v] := by unfold Elem.baseX; simp [h]
  unfold Elem.feasX
  split
  · refine lt_of_le_of_lt (dirFilter_length _ _ _) ?_
    rw [hb]; simp
  · rw [hb]; simp

theorem gridEntry_same {n : String} {e : Elem K} {xj xj' : K} {drop : Bool} {g : GridEntry K}
    (hx : x[A.names.idxOf n]? = some xj) (hx' : x'[A.names.idxOf n]? = some xj')
    (hs : e.actionable = true → xj' = xj) (h : gridEntry ext n e xj true drop = .ok g) :
    ∃ g', gridEntry ext n e xj' true drop = .ok g' ∧ SameEntry A x x' g g' := by
  by_cases ha : e.actionable = true
  · obtain rfl := hs ha
    have hn := gridEntry_name h
    exact ⟨g, h, rfl, Or.inl ⟨rfl, by rw [hn, hx, hx']⟩⟩
  · have ha : e.actionable = false := by simpa using ha
    have hn := gridEntry_name h
    unfold gridEntry at h ⊢
    obtain ⟨acts, h1, h⟩ := bind_ok_iff.mp h
    obtain ⟨pcts, h2, h⟩ := bind_ok_iff.mp h
    cases h
    have e1 := feasibleValues_ok h1
    unfold Elem.feasibleValues at h1
    obtain ⟨_, h3, h1⟩ := bind_ok_iff.mp h1
    unfold Elem.feasiblePercentiles at h2
    obtain ⟨t, h4, h2⟩ := bind_ok_iff.mp h2
    refine ⟨⟨n, (e.feasX xj' drop).map (· - xj'), (e.feasX xj' drop).map t.eval⟩, ?_, rfl, Or.inr ⟨?_, ?_⟩⟩
    · unfold Elem.feasibleValues Elem.feasiblePercentiles
      rw [h3, h4]; rfl
    · dsimp only; rw [e1, if_pos rfl, List.length_map]; exact feasX_frozen ha _ _
    · dsimp only; rw [List.length_map]; exact feasX_frozen ha _ _

theorem dictSetEntry_same {l l' : List (GridEntry K)} {g g' : GridEntry K} (h : List.Forall₂ (SameEntry A x x') l l')
    (hg : SameEntry A x x' g g') : List.Forall₂ (SameEntry A x x') (dictSetEntry l g) (dictSetEntry l' g') := by
  have hany : (l'.any fun c => decide (c.name = g'.name)) = (l.any fun c => decide (c.name = g.name)) := by
    induction h with
    | nil => rfl
    | cons h0 _ ih => rw [List.any_cons, List.any_cons, ih, h0.1, hg.1]
  unfold dictSetEntry
  rw [hany]
  by_cases ha : (l.any fun c => decide (c.name = g.name)) = true
  · rw [if_pos ha, if_pos ha, List.forall₂_map_left_iff, List.forall₂_map_right_iff]
    refine h.imp fun c c' hc => ?_
    rw [hc.1, hg.1]
    by_cases hn : c.name = g.name
    · rw [if_pos hn, if_pos hn]; exact hg
    · rw [if_neg hn, if_neg hn]; exact hc
  · rw [if_neg ha, if_neg ha]
    exact List.rel_append h (.cons hg .nil)

theorem overrideLoop_same (hs : SameActionable A x x') (ns : List String) : ∀ {l l' out : List (GridEntry K)},
    List.Forall₂ (SameEntry A x x') l l' → A.overrideLoop ext x true ns l = .ok out →
    ∃ out', A.overrideLoop ext x' true ns l' = .ok out' ∧ List.Forall₂ (SameEntry A x x') out out' := by
  induction ns with
  | nil => intro l l' out h ho; unfold ActionSet.overrideLoop at ho ⊢; cases ho; exact ⟨l', rfl, h⟩
  | cons n ns ih =>
    intro l l' out h ho
    unfold ActionSet.overrideLoop at ho
    split at ho
    · rename_i e he
      split at ho
      · rename_i xj hx
        obtain ⟨g, hg, ho⟩ := bind_ok_iff.mp ho
        have hj : A.names.idxOf n < x'.length := by rw [hs.1]; exact (List.getElem?_eq_some_iff.mp hx).1
        have hx' := List.getElem?_eq_getElem hj
        have hel : A.elems[A.names.idxOf n]? = some e := by
          unfold ActionSet.elem? at he
          split_ifs at he
          exact he
        obtain ⟨g', hg', hgg⟩ := gridEntry_same (x := x) (x' := x') hx hx' (fun ha => by
          have := hs.2 _ e hel ha
          rw [hx, hx'] at this
          exact Option.some.inj this) hg
        obtain ⟨out', h1, h2⟩ := ih (dictSetEntry_same h hgg) ho
        refine ⟨out', ?_, h2⟩
        unfold ActionSet.overrideLoop
        rw [he, hx']
        dsimp only
        rw [hg']
        exact h1
      · cases ho
    · cases ho

theorem forall2_filter {α β : Type} {R : α → β → Prop} {p : α → Bool} {q : β → Bool} {l : List α} {l' : List β}
    (hR : ∀ a c, R a c → q c = p a) (h : List.Forall₂ R l l') : List.Forall₂ R (l.filter p) (l'.filter q) := by
  induction h with
  | nil => exact .nil
  | @cons a c l l' h0 _ ih =>
    rw [List.filter_cons, List.filter_cons, hR a c h0]
    by_cases hp : p a = true
    · rw [if_pos hp, if_pos hp]; exact .cons h0 ih
    · rw [if_neg hp, if_neg hp]; exact ih

theorem forall2_mapM {α β α' β' ε : Type} {R : α → β → Prop} {S : α' → β' → Prop} {F : α → Except ε α'}
    {G : β → Except ε β'} {l : List α} {l' : List β} (hR : ∀ a c r, R a c → F a = .ok r → ∃ r', G c = .ok r' ∧ S r r')
    (h : List.Forall₂ R l l') : ∀ {out : List α'}, l.mapM F = .ok out → ∃ out', l'.mapM G = .ok out' ∧ List.Forall₂ S out out' := by
  induction h with
  | nil => intro out h; rw [List.mapM_nil] at h; cases h; exact ⟨[], by rw [List.mapM_nil]; rfl, .nil⟩
  | @cons a c l l' h0 _ ih =>
    intro out h
    rw [List.mapM_cons] at h
    obtain ⟨r, h1, h⟩ := bind_ok_iff.mp h
    obtain ⟨rs, h2, h⟩ := bind_ok_iff.mp h
    cases h
    obtain ⟨r', k1, k2⟩ := hR a c r h0 h1
    obtain ⟨rs', k3, k4⟩ := ih h2
    refine ⟨r' :: rs', ?_, .cons k2 k4⟩
    rw [List.mapM_cons, k1, ok_bind, k3, ok_bind]; rfl

theorem feasibleGrid_same (hA : A.Reachable ext) (hs : SameActionable A x x') {out : List (GridEntry K)}
    (h : A.feasibleGrid ext x true true = .ok out) :
    ∃ out', A.feasibleGrid ext x' true true = .ok out' ∧ List.Forall₂ (SameEntry A x x') out out' := by
  have hwf := hA.wf
  unfold ActionSet.feasibleGrid at h ⊢
  simp only [bind_ok_iff, pyAssert_ok_iff, decide_eq_true_eq] at h
  obtain ⟨_, hx, base, hbase, h⟩ := h
  have hx' : x'.length = A.names.length := hs.1.trans hx
  have hcols : List.Forall₂ (fun p p' : String × Elem K × K => p'.1 = p.1 ∧ p'.2.1 = p.2.1 ∧
      x[A.names.idxOf p.1]? = some p.2.2 ∧ x'[A.names.idxOf p.1]? = some p'.2.2 ∧
      (p.2.1.actionable = true → p'.2.2 = p.2.2)) (A.cols x) (A.cols x') := by
    rw [List.forall₂_iff_get]
    have l1 : (A.cols x).length = A.names.length := by
      unfold ActionSet.cols; simp [hwf.length, hx]
    have l2 : (A.cols x').length = A.names.length := by
      unfold ActionSet.cols; simp [hwf.length, hx']
    refine ⟨l1.trans l2.symm, fun j h1 h2 => ?_⟩
    have hj : j < A.names.length := by rw [← l1]; exact h1
    have hje : j < A.elems.length := by rw [hwf.length]; exact hj
    have hjx : j < x.length := by rw [hx]; exact hj
    have hjx' : j < x'.length := by rw [hx']; exact hj
    unfold ActionSet.cols
    simp only [List.get_eq_getElem, List.getElem_zip, true_and]
    rw [hwf.distinct.idxOf_getElem]
    refine ⟨List.getElem?_eq_getElem hjx, List.getElem?_eq_getElem hjx', fun ha => ?_⟩
    have := hs.2 j _ (List.getElem?_eq_getElem hje) ha
    rw [List.getElem?_eq_getElem hjx, List.getElem?_eq_getElem hjx'] at this
    exact Option.some.inj this
  obtain ⟨base', k1, k2⟩ := forall2_mapM (S := SameEntry A x x')
    (G := fun p : String × Elem K × K => gridEntry ext p.1 p.2.1 p.2.2 true true) (fun p p' g hp hg => by
      obtain ⟨h1, h2, h3, h4, h5⟩ := hp
      obtain ⟨g', h6, h7⟩ := gridEntry_same (x := x) (x' := x') h3 h4 h5 hg
      refine ⟨g', ?_, h7⟩
      rw [h1, h2]; exact h6) (forall2_filter (q := fun p : String × Elem K × K => !true || p.2.1.compatTruthy)
        (fun p p' hp => by rw [hp.2.1]) hcols) hbase
  by_cases hc : 0 < A.cons.items.length
  · rw [if_pos hc] at h
    obtain ⟨out', h1, h2⟩ := overrideLoop_same hs _ k2 h
    refine ⟨out', ?_, h2⟩
    rw [decide_eq_true hx']
    dsimp only
    rw [k1, ok_bind, if_pos hc]
    exact h1
  · rw [if_neg hc] at h
    cases h
    refine ⟨base', ?_, k2⟩
    rw [decide_eq_true hx']
    dsimp only
    rw [k1, ok_bind, if_neg hc]
    rfl

theorem forall2_same_filter {l l' : List (GridEntry K)} (h : List.Forall₂ (SameEntry A x x') l l') :
    (l'.filter fun g => decide (2 ≤ g.acts.length)) = l.filter fun g => decide (2 ≤ g.acts.length) := by
  induction h with
  | nil => rfl
  | cons h0 _ ih =>
    obtain ⟨-, ⟨rfl, -⟩ | ⟨h1, h2⟩⟩ := h0
    · rw [List.filter_cons, List.filter_cons, ih]
    · rw [List.filter_cons_of_neg (by simpa using h2), List.filter_cons_of_neg (by simpa using h1), ih]

/-- The features of the program do not depend on the values of features that cannot change. -/
theorem buildInfo_same (hb : BuilderOK ext b) (hs : SameActionable b.aset x x') {feats : List (Feat K)}
    (h : b.buildInfo ext x = .ok feats) : b.buildInfo ext x' = .ok feats := by
  unfold Builder.buildInfo at h ⊢
  simp only [bind_ok_iff, pyAssert_ok_iff] at h
  obtain ⟨grid, hgrid, fs, hfs, _, hchk, h⟩ := h
  cases h
  obtain ⟨grid', h1, h2⟩ := feasibleGrid_same hb.aset hs hgrid
  have h3 : (grid'.filter fun g => decide (2 ≤ g.acts.length)).mapM (mkFeat ext b x' b.aset.cons.flatNames) = .ok feats := by
    rw [forall2_same_filter h2, ← hfs]
    refine mapM_congr_ok fun g hg => ?_
    obtain ⟨hg, hl⟩ := List.mem_filter.mp hg
    have hl : 2 ≤ g.acts.length := by simpa using hl
    have : x'[b.varNames.idxOf g.name]? = x[b.varNames.idxOf g.name]? := by
      rw [hb.names]
      have : ∀ {l l' : List (GridEntry K)}, List.Forall₂ (SameEntry b.aset x x') l l' → g ∈ l →
          x'[b.aset.names.idxOf g.name]? = x[b.aset.names.idxOf g.name]? := by
        intro l l' h
        induction h with
        | nil => intro h; cases h
        | cons h0 _ ih =>
          intro h
          rcases List.mem_cons.mp h with rfl | h
          · obtain ⟨-, ⟨-, h⟩ | ⟨h, -⟩⟩ := h0
            · exact h
            · omega
          · exact ih h
      exact this h2 hg
    unfold mkFeat
    dsimp only
    rw [this]
  dsimp only
  rw [h1, ok_bind, h3, ok_bind, hchk]
  rfl

/-- **C119**, acceptance.  Whether a point is accepted does not depend on the values of features that cannot change. -/
theorem C119_accepts (hr : b0.Reachable ext) (hs : SameActionable b0.aset x x') :
    (b0.setX ext x').2 = .ok () ↔ (b0.setX ext x).2 = .ok () := by
  have key : ∀ {x x' : List K}, SameActionable b0.aset x x' → (b0.setX ext x).2 = .ok () → (b0.setX ext x').2 = .ok () := by
    intro x x' hs h
    rw [setX_status] at h ⊢
    rw [hs.1]
    split_ifs at h ⊢ with hl
    obtain ⟨feats, h1, h2⟩ := bind_ok_iff.mp h
    rw [buildInfo_same hr.ok hs h1, ok_bind, ← h2]
    exact buildMip_status' rfl rfl rfl
  exact ⟨key hs.symm, key hs⟩

/-- Choices carry over to a point with the same values of actionable features and a score at least as favourable. -/
theorem better_choice (hr : b0.Reachable ext) (hrd : d0.Reachable ext) (hA : d0.aset = b0.aset) (hw : d0.coefs = b0.coefs)
    (hc : d0.costType = b0.costType) (hm : d0.maxItems = b0.maxItems) (hm' : d0.minItems = b0.minItems)
    (hs : SameActionable b0.aset x x') (hscore : (b0.aset.yDesired : K) * (dot b0.coefs x + b0.intercept) ≤
      (b0.aset.yDesired : K) * (dot d0.coefs x' + d0.intercept))
    {feats feats' : List (Feat K)} (h : b0.buildInfo ext x = .ok feats) (h' : d0.buildInfo ext x' = .ok feats') :
    feats' = feats ∧ ∀ κ, ChoiceOK (b0.buildArgs x feats) κ → ChoiceOK (d0.buildArgs x' feats') κ := by
  have hbi : d0.buildInfo ext x' = b0.buildInfo ext x' := by
    have : mkFeat ext d0 x' = mkFeat ext b0 x' := by
      funext cn g
      unfold mkFeat
      rw [hrd.ok.names, hr.ok.names, hA, hw, hc]
    unfold Builder.buildInfo
    rw [this, hA]
  rw [hbi, buildInfo_same hr.ok hs h] at h'
  obtain rfl := Except.ok.inj h'
  refine ⟨rfl, fun κ hκ => ?_⟩
  have hy := hr.ok.aset.wf.y
  have h1 := hκ.score
  refine ⟨hκ.lt, ?_, ?_, ?_, ?_⟩
  · unfold Builder.buildArgs at h1 ⊢
    dsimp only at h1 ⊢
    rw [hA]
    rw [reaches_iff hy] at h1 ⊢
    unfold Builder.score at h1 ⊢
    rw [mul_add] at h1 ⊢
    linarith
  · have := hκ.lo
    unfold Builder.buildArgs at this ⊢
    dsimp only at this ⊢
    rw [hm']; exact this
  · have := hκ.hi
    unfold Builder.buildArgs at this ⊢
    dsimp only at this ⊢
    rw [hm]; exact this
  · have := hκ.limits
    unfold Builder.buildArgs at this ⊢
    dsimp only at this ⊢
    rw [hA]; exact this

/-- **C119.**  Two people agree at all features that can change, and the score of the second is at least as favourable (they may
ask one builder, or two that agree in all but intercept and back end; exact solvers, any refits).  If there is an answer for the
first there is one for the second; its objective, and for total and local costs its cost, is not larger. -/
theorem C119_better (hso : SetOrderOk ext) (ho : o.Exact) (ho' : o'.Exact) (hr : b0.Reachable ext) (hrd : d0.Reachable ext)
    (hA : d0.aset = b0.aset) (hw : d0.coefs = b0.coefs) (hc : d0.costType = b0.costType) (hm : d0.maxItems = b0.maxItems)
    (hm' : d0.minItems = b0.minItems) (hs : SameActionable b0.aset x x')
    (hscore : (b0.aset.yDesired : K) * (dot b0.coefs x + b0.intercept) ≤
      (b0.aset.yDesired : K) * (dot d0.coefs x' + d0.intercept))
    (hx : b0.setX ext x = (b1, .ok ())) (hb : b1.Refitted o b2) (hf : b2.fit o = .ok (b3, i)) (hi : i.feasible = true)
    (hxd : d0.setX ext x' = (d1, .ok ())) (hd : d1.Refitted o' d2) (hfd : d2.fit o' = .ok (d3, i')) :
    i'.feasible = true ∧ ∃ u u', i.upperbound = .fin u ∧ i'.upperbound = .fin u' ∧ u' ≤ u ∧
      (b0.costType ≠ .max → i.cost = .fin u ∧ i'.cost = .fin u') := by
  obtain ⟨feats, h1, h2, h3⟩ := Posed.setX hso hr.ok hx
  obtain ⟨feats', h1', h2', h3'⟩ := Posed.setX hso hrd.ok hxd
  obtain ⟨rfl, himp⟩ := better_choice hr hrd hA hw hc hm hm' hs hscore h1 h1'
  obtain ⟨-, -, rfl⟩ := fit_ok hf
  obtain ⟨-, -, rfl⟩ := fit_ok hfd
  refine ⟨posed_feasible h2 h2' (h3.refitted hb) (h3'.refitted hd) ho.1 ho' himp hi, ?_⟩
  exact posed_bound h2 h2' (h3.refitted hb) (h3'.refitted hd) ho ho' himp hc (fun κ => rfl) hi

theorem empty_of_infeasible (h : b.solutionInfo.feasible = false) : b.solutionInfo = emptyInfo := by
  unfold Builder.solutionInfo at h ⊢
  split at h
  · cases h
  · rfl

/-- **C119**, equal scores: two people who agree at all features that can change and have equal scores are treated alike.  There
is an answer for both or for neither, and the objective, and for total and local costs the cost, is the same. -/
theorem C119_alike (hso : SetOrderOk ext) (ho : o.Exact) (ho' : o'.Exact) (hr : b0.Reachable ext) (hrd : d0.Reachable ext)
    (hA : d0.aset = b0.aset) (hw : d0.coefs = b0.coefs) (hc : d0.costType = b0.costType) (hm : d0.maxItems = b0.maxItems)
    (hm' : d0.minItems = b0.minItems) (hs : SameActionable b0.aset x x')
    (hscore : dot d0.coefs x' + d0.intercept = dot b0.coefs x + b0.intercept)
    (hx : b0.setX ext x = (b1, .ok ())) (hb : b1.Refitted o b2) (hf : b2.fit o = .ok (b3, i))
    (hxd : d0.setX ext x' = (d1, .ok ())) (hd : d1.Refitted o' d2) (hfd : d2.fit o' = .ok (d3, i')) :
    i'.feasible = i.feasible ∧ i'.upperbound = i.upperbound ∧ (b0.costType ≠ .max → i'.cost = i.cost) := by
  have hs' : SameActionable d0.aset x' x := by rw [hA]; exact hs.symm
  cases hi : i.feasible with
  | true =>
    obtain ⟨k1, u, u', k2, k3, k4, k5⟩ :=
      C119_better hso ho ho' hr hrd hA hw hc hm hm' hs (by rw [hscore]) hx hb hf hi hxd hd hfd
    obtain ⟨-, v, v', g2, g3, g4, g5⟩ :=
      C119_better hso ho' ho hrd hr hA.symm hw.symm hc.symm hm.symm hm'.symm hs' (by rw [hscore]) hxd hd hfd k1 hx hb hf
    rw [k3] at g2; cases g2
    rw [k2] at g3; cases g3
    obtain rfl := le_antisymm k4 g4
    exact ⟨k1, k3.trans k2.symm, fun h => (k5 h).2.trans (k5 h).1.symm⟩
  | false =>
    have hi' : i'.feasible = false := by
      cases hi' : i'.feasible with
      | false => rfl
      | true =>
        have := (C119_better hso ho' ho hrd hr hA.symm hw.symm hc.symm hm.symm hm'.symm hs' (by rw [hscore])
          hxd hd hfd hi' hx hb hf).1
        rw [hi] at this; cases this
    obtain ⟨-, -, rfl⟩ := fit_ok hf
    obtain ⟨-, -, rfl⟩ := fit_ok hfd
    have e1 := empty_of_infeasible hi
    have e2 := empty_of_infeasible hi'
    rw [e1, e2]
    exact ⟨rfl, rfl, fun _ => rfl⟩

/-- Non-vacuity of C119: the second feature cannot change.  Where it is 0 the first has to move by two; where it is 1 the
score is better by one, and a move by one is enough.  In both cases the features of the program are the same. -/
theorem C119_example (be : Backend) : ∃ b0 b1 d1 : Builder ℚ, b0.Reachable exExt ∧ b0.costType = .total ∧
    SameActionable b0.aset [0, 0] [0, 1] ∧ ¬ SameActionable b0.aset [0, 0] [1, 0] ∧
    (b0.aset.yDesired : ℚ) * (dot b0.coefs [0, 0] + b0.intercept) ≤ (b0.aset.yDesired : ℚ) * (dot b0.coefs [0, 1] + b0.intercept) ∧
    b0.setX exExt [0, 0] = (b1, .ok ()) ∧ b0.setX exExt [0, 1] = (d1, .ok ()) ∧
    ∀ o o' : Oracle ℚ, o.Exact → o'.Exact → ∃ b3 d3 i i' c c', b1.fit o = .ok (b3, i) ∧ d1.fit o' = .ok (d3, i') ∧
      i.feasible = true ∧ i'.feasible = true ∧ i.actions = some [2, 0] ∧ i'.actions = some [1, 0] ∧
      i.cost = .fin c ∧ i'.cost = .fin c' ∧ c' < c := by
  have key : ∀ be, ∃ b0 : Builder ℚ,
      exBuilderE be .total [[0, 0], [1, 1], [2, 1]] ["a", "b"]
        (fun A => .ok (A.setElemAttr "b" "actionable" (.bool false)).1) [1, 1] (-2) = .ok b0 ∧ b0.costType = .total ∧
      b0.aset.yDesired = 1 ∧ b0.coefs = [1, 1] ∧ b0.intercept = -2 ∧
      b0.aset.elems.map (·.actionable) = [true, false] ∧
      (b0.setX exExt [0, 0]).2 = .ok () ∧ (b0.setX exExt [0, 1]).2 = .ok () ∧
      admitted (b0.buildArgs [0, 0] (b0.setX exExt [0, 0]).1.feats) (fun _ => true) ≠ [] ∧
      (∀ κ ∈ optChoices (b0.buildArgs [0, 0] (b0.setX exExt [0, 0]).1.feats) (fun _ => true),
        actVec b0.coefs.length (b0.setX exExt [0, 0]).1.feats κ = [2, 0] ∧
        1 / 2 < choiceSum (b0.setX exExt [0, 0]).1.feats κ) ∧
      admitted (b0.buildArgs [0, 1] (b0.setX exExt [0, 1]).1.feats) (fun _ => true) ≠ [] ∧
      (∀ κ ∈ optChoices (b0.buildArgs [0, 1] (b0.setX exExt [0, 1]).1.feats) (fun _ => true),
        actVec b0.coefs.length (b0.setX exExt [0, 1]).1.feats κ = [1, 0] ∧
        choiceSum (b0.setX exExt [0, 1]).1.feats κ < 1 / 2) := by
    intro be; cases be <;> decide +kernel
  obtain ⟨b0, h1, h2, h3, h4, h5, h6, h7, h8, h9, h10, h11, h12⟩ := key be
  have hr : b0.Reachable exExt := exBuilderE_reachable h1 fun A A' hA h => by cases h; exact .setElem _ _ _ hA
  obtain ⟨b1, hs⟩ : ∃ b1, b0.setX exExt [0, 0] = (b1, .ok ()) := ⟨_, Prod.ext rfl h7⟩
  obtain ⟨d1, hd⟩ : ∃ b1, b0.setX exExt [0, 1] = (b1, .ok ()) := ⟨_, Prod.ext rfl h8⟩
  have hel : ∀ (j : ℕ) (e : Elem ℚ), b0.aset.elems[j]? = some e → ([true, false] : List Bool)[j]? = some e.actionable := by
    intro j e he
    rw [← h6, List.getElem?_map, he]; rfl
  refine ⟨b0, b1, d1, hr, h2, ⟨rfl, fun j e he ha => ?_⟩, fun h => ?_, ?_, hs, hd, fun o o' ho ho' => ?_⟩
  · have := hel j e he
    rw [ha] at this
    match j, this with
    | 0, _ => rfl
    | 1, h => cases h
    | (n + 2), h => simp at h
  · have hl : 0 < b0.aset.elems.length := by
      have := congrArg List.length h6
      simp at this; omega
    have he := List.getElem?_eq_getElem hl
    have := hel 0 _ he
    have := h.2 0 _ he (by simpa using this.symm)
    norm_num at this
  · rw [h3, h4, h5]; decide +kernel
  obtain ⟨b1', feats, g1, -, g2, b3, i, g3, g4⟩ := exSolve exExt_order hr h7 ho
  rw [hs] at g1; cases g1
  obtain ⟨d1', feats', k1, -, k2, d3, i', k3, k4⟩ := exSolve exExt_order hr h8 ho'
  rw [hd] at k1; cases k1
  rw [g2] at h9 h10
  rw [k2] at h11 h12
  rcases g4 with ⟨h, -⟩ | ⟨κ, hκ, -, gf, ga, -, gc, -⟩
  · exact absurd h h9
  rcases k4 with ⟨h, -⟩ | ⟨κ', hκ', -, kf, ka, -, kc, -⟩
  · exact absurd h h11
  obtain ⟨e1, e2⟩ := h10 κ hκ
  obtain ⟨e3, e4⟩ := h12 κ' hκ'
  rw [if_neg (by rw [h2]; decide)] at gc kc
  exact ⟨b3, d3, i, i', _, _, g3, k3, gf, kf, by rw [ga, e1], by rw [ka, e3], gc, kc, lt_trans e4 e2⟩

end Recourse
