import Verif.Props.Flip
import Verif.Lemmas.Offers

/-!
# Flipsets in use: C51, C53, C58
-/

set_option linter.unusedSectionVars false

namespace Recourse

variable {K : Type} [Field K] [LinearOrder K] [IsStrictOrderedRing K] [FloorRing K]
  {ext : Ext K} {o : Oracle K} {fs fs' : Flipset K} {be : Backend} {A : ActionSet K} {x w : List K} {t : K}

/-- The builder of a flipset in use: created for an action set that offers the same as `A`, given the point
`x`, and then only used for enumerations. -/
structure BuiltFor (ext : Ext K) (o : Oracle K) (be : Backend) (A : ActionSet K) (x w : List K) (t : K)
    (b : Builder K) : Prop where
  ex : ∃ c b1 : Builder K, c.Reachable ext ∧ SameOffers ext A c.aset ∧ c.coefs = w ∧ c.intercept = t ∧ c.backend = be ∧
    c.minItems = 0 ∧ c.maxItems = numActionable A ∧ c.setX ext x = (b1, .ok ()) ∧ b1.After o b

/-- What holds of a flipset in use. -/
structure Flipset.Run (ext : Ext K) (o : Oracle K) (be : Backend) (A : ActionSet K) (x w : List K) (t : K)
    (fs : Flipset K) : Prop where
  names : fs.names = A.elems.map (·.name)
  backend : fs.backend = be
  point : fs.x = x
  coefs : fs.coefs = w
  intercept : fs.intercept = t
  reach : fs.aset.Reachable ext
  offers : SameOffers ext A fs.aset
  builder : ∀ b, fs.builder = some b → BuiltFor ext o be A x w t b
  items : ∀ i ∈ fs.items, ∃ a, i.actions = some a ∧ IsRecourse A w t x a 1 (numActionable A)

theorem Flipset.Run.resort (h : fs.Run ext o be A x w t) : fs.resort.Run ext o be A x w t := by
  unfold Flipset.resort
  split_ifs
  · exact ⟨h.names, h.backend, h.point, h.coefs, h.intercept, h.reach, h.offers, h.builder, h.items⟩
  · exact h

theorem setX_aset_reachable {c b0 : Builder K} {r : Except Err Unit} (hr : c.Reachable ext)
    (h : c.setX ext x = (b0, r)) :
    b0.aset.Reachable ext ∧ SameOffers ext c.aset b0.aset := by
  have h3 := (setX_fields ext c x).2.2
  rw [h] at h3
  have hA := hr.ok.aset
  rcases h3 with h3 | h3 | h3
  · rw [h3]; exact ⟨hA, SameOffers.refl _⟩
  · rw [h3]
    refine ⟨hA.touch true, SameOffers.touch ?_ true⟩
    rw [← hA.wf.names, List.length_map]
  · rw [h3]
    exact ⟨(hA.visit _).1, SameOffers.visit _ _⟩

/-- The builder that `populate` works with. -/
theorem Flipset.Run.made (h : fs.Run ext o be A x w t) {ct : CostType} {A' : ActionSet K} {b0 : Builder K}
    (hm : fs.Made ext ct A' b0) :
    BuiltFor ext o be A x w t b0 ∧ A'.Reachable ext ∧ SameOffers ext A A' := by
  rcases hm with ⟨h1, rfl⟩ | ⟨h1, c, h2, h3, rfl⟩
  · exact ⟨h.builder b0 h1, h.reach, h.offers⟩
  · have hcr : c.Reachable ext := Builder.Reachable.mk h.reach h2
    obtain ⟨g1, g2, g3, g4, g5, g6, g7⟩ := mkBuilder_offers h.reach h2
    rw [h.point] at h3
    obtain ⟨k1, k2⟩ := setX_aset_reachable hcr h3
    have ho := h.offers.trans g1
    refine ⟨⟨c, b0, hcr, ho, g2.trans h.coefs, g3.trans h.intercept, g5.trans h.backend, g6, ?_, h3, .refl⟩, k1, ho.trans k2⟩
    rw [g7, h.offers.numActionable]

theorem BuiltFor.items (hso : SetOrderOk ext) (ho : o.Sound) {b b' : Builder K} (h : BuiltFor ext o be A x w t b)
    {et : EnumType} {fuel : ℕ} {total : Option ℕ} {l : List (Info K)}
    (hp : b.populate o et fuel total = .ok (some (b', l))) :
    BuiltFor ext o be A x w t b' ∧
    ∀ i ∈ l, i.feasible = true ∧ ∃ a, i.actions = some a ∧ IsRecourse A w t x a 1 (numActionable A) := by
  obtain ⟨c, b1, h1, h2, h3, h4, h5, h6, h7, h8, h9⟩ := h.ex
  refine ⟨⟨c, b1, h1, h2, h3, h4, h5, h6, h7, h8, .populate h9 hp⟩, fun i hi => ?_⟩
  obtain ⟨g1, a, g2, g3⟩ := C22_items_actionable hso ho h1 h8 h9 hp i hi
  refine ⟨g1, a, g2, ?_⟩
  rw [h3, h4, h6, h7] at g3
  exact h2.isRecourse.mp g3

theorem Flipset.Used.run (hso : SetOrderOk ext) (ho : o.Sound) (hA : A.Reachable ext)
    (h : (mkFlipset be A x w t none).Used ext o fs) : fs.Run ext o be A x w t := by
  induction h with
  | refl =>
    exact ⟨rfl, rfl, rfl, rfl, rfl, hA, SameOffers.refl A, (fun b hb => by cases hb), fun i hi => by cases hi⟩
  | @populate fs fs' fuel total et ct r hr h ih =>
    have chg : ∀ (A' : ActionSet K) (b : Builder K), A'.Reachable ext → SameOffers ext A A' →
        BuiltFor ext o be A x w t b →
        ({ fs with aset := A', builder := some b } : Flipset K).Run ext o be A x w t := by
      intro A' b g1 g2 g3
      exact ⟨ih.names, ih.backend, ih.point, ih.coefs, ih.intercept, g1, g2,
        (fun b' hb => by cases hb; exact g3), ih.items⟩
    rcases populate_cases h with ⟨er, h1, rfl, -⟩ | ⟨er, c, b0, h1, hn, h2, h3, rfl⟩ | ⟨er, A', b0, h1, hm, -, rfl⟩ |
      ⟨er, A', b0, b, infos, h1, hm, hp, -, rfl⟩ | ⟨A', b0, b, infos, h1, hm, hp, ha⟩
    · exact ih
    · have hcr : c.Reachable ext := Builder.Reachable.mk ih.reach h2
      obtain ⟨k1, k2⟩ := setX_aset_reachable hcr h3
      have g1 := (mkBuilder_offers ih.reach h2).1
      exact ⟨ih.names, ih.backend, ih.point, ih.coefs, ih.intercept, k1, (ih.offers.trans g1).trans k2,
        ih.builder, ih.items⟩
    · obtain ⟨g1, g2, g3⟩ := ih.made hm
      exact chg A' b0 g2 g3 g1
    · obtain ⟨g1, g2, g3⟩ := ih.made hm
      exact chg A' b g2 g3 (g1.items hso ho hp).1
    · obtain ⟨g1, g2, g3⟩ := ih.made hm
      obtain ⟨g4, g5⟩ := g1.items hso ho hp
      have hc := chg A' b g2 g3 g4
      obtain ⟨-, rfl⟩ := flipAdd_ok ha
      by_cases hl : infos.isEmpty = true
      · rw [if_pos hl]; exact hc
      · rw [if_neg hl]
        apply Flipset.Run.resort
        refine ⟨hc.names, hc.backend, hc.point, hc.coefs, hc.intercept, hc.reach, hc.offers, hc.builder, ?_⟩
        intro i hi
        rcases List.mem_append.mp hi with hi | hi
        · exact ih.items i hi
        · exact (g5 i hi).2
  | @sortBy fs fs' cols inplace hr h ih =>
    unfold Flipset.sort at h
    by_cases hc : cols.isEmpty = true
    · rw [if_pos hc] at h; cases h
    rw [if_neg hc] at h
    cases h
    apply Flipset.Run.resort
    exact ⟨ih.names, ih.backend, ih.point, ih.coefs, ih.intercept, ih.reach, ih.offers, ih.builder, ih.items⟩
  | resort hr ih => exact ih.resort
  | flat hr ih => exact ih.resort

theorem Flipset.Used.reachable {ord : Option (List SortCol)} {fs0 : Flipset K} (h0 : fs0.Reachable ext ord)
    (h : fs0.Used ext o fs) : ∃ ord', fs.Reachable ext ord' := by
  induction h with
  | refl => exact ⟨_, h0⟩
  | populate hr h ih => obtain ⟨_, ih⟩ := ih; exact ⟨_, .populate ih h⟩
  | sortBy hr h ih => obtain ⟨_, ih⟩ := ih; exact ⟨_, .sortBy ih h⟩
  | resort hr ih => obtain ⟨_, ih⟩ := ih; exact ⟨_, .resort ih⟩
  | flat hr ih => obtain ⟨_, ih⟩ := ih; exact ⟨_, .flat ih⟩

/-! ## C58 -/

/-- **C58.**  Every item a flipset ever stores is actionable recourse for the point: for all solvers that
return feasible points, and all histories of `populate` and `sort`. -/
theorem C58_items (hso : SetOrderOk ext) (ho : o.Sound) (hA : A.Reachable ext)
    (h : (mkFlipset be A x w t none).Used ext o fs) :
    ∀ i ∈ fs.items, ∃ a, i.actions = some a ∧ IsRecourse A w t x a 1 (numActionable A) :=
  (h.run hso ho hA).items

/-! ## C51 -/

/-- Rows come from items. -/
theorem Flipset.Inv.row {ord : Option (List SortCol)} (h : fs.Inv ord) {r : FlipRow K} (hr : r ∈ fs.rows) :
    ∃ i ∈ fs.items, r.bare = fs.itemRow 0 i := by
  have h1 : r.bare ∈ fs.items.map (fs.itemRow 0) := h.rows.mem_iff.mpr (List.mem_map_of_mem hr)
  obtain ⟨i, hi, he⟩ := List.mem_map.mp h1
  exact ⟨i, hi, he.symm⟩

/-- The column `flipped` of a flipset never contains `False`: rows for which it would be `False` are
rejected. -/
theorem C51_constant {ord : Option (List SortCol)} (h : fs.Reachable ext ord) : ∀ r ∈ fs.rows, r.flipped = true := by
  intro r hr
  obtain ⟨i, hi, he⟩ := h.inv.row hr
  have e1 : r.flipped = (fs.itemRow 0 i).flipped := by rw [← he]; rfl
  obtain ⟨⟨⟨a, h1, -, -, -, -, h6⟩, -, -⟩, -⟩ := h.inv.items i hi
  rw [e1]
  unfold Flipset.itemRow
  dsimp only
  rw [h1]
  exact decide_eq_true (Ne.symm h6)

/-- Scores on the closed desired side after the action differ from the score of a denied point, in sign and
in value. -/
theorem denied_differs {y : Int} (hy : y = 1 ∨ y = -1) {s s' : K} (hden : (y : K) * s < 0)
    (hs : if 0 < y then 0 ≤ s' else s' ≤ 0) : sgn s' ≠ sgn s ∧ s ≠ ((sgn s' : Int) : K) := by
  rcases hy with rfl | rfl
  · simp only [Int.cast_one, one_mul] at hden
    rw [if_pos (by norm_num)] at hs
    have h1 : sgn s = -1 := by unfold sgn; rw [if_neg (by linarith), if_pos hden]
    have h2 : 0 ≤ sgn s' := by
      unfold sgn
      by_cases h : 0 < s'
      · rw [if_pos h]; norm_num
      · rw [if_neg h, if_neg (by linarith)]
    refine ⟨by rw [h1]; omega, fun h => ?_⟩
    have : (0 : K) ≤ ((sgn s' : Int) : K) := by exact_mod_cast h2
    linarith
  · simp only [Int.cast_neg, Int.cast_one, neg_mul, one_mul] at hden
    rw [if_neg (by norm_num)] at hs
    have h1 : sgn s = 1 := by unfold sgn; rw [if_pos (by linarith)]
    have h2 : sgn s' ≤ 0 := by
      unfold sgn
      rw [if_neg (by linarith)]
      by_cases h : s' < 0
      · rw [if_pos h]; norm_num
      · rw [if_neg h]
    refine ⟨by rw [h1]; omega, fun h => ?_⟩
    have : ((sgn s' : Int) : K) ≤ 0 := by exact_mod_cast h2
    linarith

/-- **C51** (partial).  For a denied point all rows of a flipset are truthful: `flipped` is `True` and the
prediction does change.  Missing from the full property: points that are not denied, for which it is false
(`C51_flipped_refuted`). -/
theorem C51_flipped_partial (hso : SetOrderOk ext) (ho : o.Sound) (hA : A.Reachable ext)
    (hden : (A.yDesired : K) * (dot w x + t) < 0) (h : (mkFlipset be A x w t none).Used ext o fs) :
    ∀ r ∈ fs.rows, r.flipped = true ∧ r.yhatNew ≠ sgn (dot w x + t) := by
  intro r hr
  obtain ⟨ord, hre⟩ := h.reachable (.mk be A x w t none)
  refine ⟨C51_constant hre r hr, ?_⟩
  have hrun := h.run hso ho hA
  obtain ⟨i, hi, he⟩ := hre.inv.row hr
  obtain ⟨a, h1, h2⟩ := hrun.items i hi
  have e1 : r.yhatNew = (fs.itemRow 0 i).yhatNew := by rw [← he]; rfl
  have e2 : (fs.itemRow 0 i).yhatNew = sgn (dot w (vadd x a) + t) := by
    unfold Flipset.itemRow Flipset.predict Flipset.score
    dsimp only
    rw [h1, hrun.point, hrun.coefs, hrun.intercept, Option.getD_some, add_comm]
  rw [e1, e2]
  exact (denied_differs hA.wf.y hden h2.score).1

/-! ## C59 -/

/-- Costs of admitted choices are positive. -/
theorem Reports.cost_pos {n : ℕ} {p : BuildArgs K} (hok : FeatsOK n p.feats) {κ : ℕ → ℕ} {i : Info K}
    (hk : ChoiceOK p κ) (h : Reports n p κ i) : i.cost.pos = true := by
  have hsz : 1 ≤ choiceSize p.feats κ := le_trans (le_max_right _ _) hk.lo
  obtain ⟨f, hfm, hfc⟩ : ∃ f ∈ p.feats, κ f.idx ≠ 0 := by
    unfold choiceSize at hsz
    have := List.countP_pos_iff.mp hsz
    simpa using this
  have hfpos := (hok.cst_pos hfm hk.lt).2 hfc
  by_cases hct : p.costType = .max
  · obtain ⟨c, h1, h2, -⟩ := h.max hct
    rw [h2]
    have := (choiceMax_spec p.feats κ).2.1 f hfm
    exact decide_eq_true (by linarith)
  · rw [(h.sum hct).1]
    refine decide_eq_true (lt_of_lt_of_le hfpos ?_)
    unfold choiceSum
    refine List.single_le_sum ?_ _ (List.mem_map_of_mem hfm)
    intro v hv
    obtain ⟨g, hg, rfl⟩ := List.mem_map.mp hv
    exact hok.cst_nonneg hk.lt hg

/-- Items found pass the checks of the flipset, if the score of the point is not (as a number) the prediction
after some recourse. -/
theorem BuiltFor.accepted (hso : SetOrderOk ext) (ho : o.Sound) (hA : A.Reachable ext)
    (hne : ∀ a, IsRecourse A w t x a 1 (numActionable A) → dot w x + t ≠ ((sgn (dot w (vadd x a) + t) : Int) : K))
    {b b' : Builder K} (h : BuiltFor ext o be A x w t b)
    {et : EnumType} {fuel : ℕ} {total : Option ℕ} {l : List (Info K)}
    (hp : b.populate o et fuel total = .ok (some (b', l)))
    (hn : fs.names = A.elems.map (·.name)) (hx : fs.x = x) (hw : fs.coefs = w) (ht : fs.intercept = t) :
    ∀ i ∈ l, ItemOK fs i := by
  intro i hi
  obtain ⟨hfe, a, h1, h2⟩ := (h.items hso ho hp).2 i hi
  obtain ⟨c, b1, hcr, hof, hcw, hct, -, -, -, hsx, haf⟩ := h.ex
  obtain ⟨feats, g1, g2, g3⟩ := Posed.setX hso hcr.ok hsx
  obtain ⟨-, hxl, -, -⟩ := buildInfo_spec hso hcr.ok g1
  obtain ⟨Q, -, hq⟩ := g3.after g2 ho haf
  obtain ⟨tr, rfl, htr, -⟩ := hq.popLoop g2 ho (populate_ok hp).2.2
  have hnl : fs.names.length = A.names.length := by rw [hn, hA.wf.names]
  have hxn : x.length = fs.names.length := by rw [hxl, hof.names, hnl]
  have hwn : w.length = fs.names.length := by rw [← hcw, hcr.ok.coefs, hof.names, hnl]
  refine ⟨⟨a, h1, by rw [h2.permitted.1, hxn], by rw [hx, hxn], by rw [hw, hwn],
    by rw [flatnonzero_length]; exact h2.min, ?_⟩, ?_, hfe⟩
  · unfold Flipset.yhat Flipset.predict Flipset.score
    rw [hx, hw, ht, add_comm t (dot w x), add_comm t (dot w (vadd x a))]
    exact hne a h2
  · rw [List.nil_append] at hi
    obtain ⟨q, hq', rfl⟩ := List.mem_map.mp hi
    obtain ⟨k1, -, k3⟩ := htr.mem q hq'
    exact k3.cost_pos g2 k1

/-- The general form of C59. -/
theorem populate_succeeds (hso : SetOrderOk ext) (ho : o.Sound) (hA : A.Reachable ext)
    (hne : ∀ a, IsRecourse A w t x a 1 (numActionable A) → dot w x + t ≠ ((sgn (dot w (vadd x a) + t) : Int) : K))
    (h : (mkFlipset be A x w t none).Used ext o fs)
    {ct : CostType}
    (hb : (∃ b, fs.builder = some b) ∨ ∃ c b1, mkBuilder be ct fs.aset w t = .ok c ∧ c.setX ext x = (b1, .ok ()))
    (et : EnumType) (total : Option ℕ) (htot : ∀ k, total = some k → 1 ≤ k) :
    ∃ fs', ∀ fuel, maxEnum et (numActionable A) < fuel →
      fs.populate ext o fuel total et ct = some (fs', .ok ()) := by
  have hrun := h.run hso ho hA
  -- the builder in use
  have hmade : ∃ A' b0, fs.Made ext ct A' b0 := by
    cases hbb : fs.builder with
    | some b => exact ⟨fs.aset, b, Or.inl ⟨hbb, rfl⟩⟩
    | none =>
      rcases hb with ⟨b, hb⟩ | ⟨c, b1, h1, h2⟩
      · rw [hbb] at hb; cases hb
      · refine ⟨b1.aset, b1, Or.inr ⟨hbb, c, ?_, ?_, rfl⟩⟩
        · rw [hrun.backend, hrun.coefs, hrun.intercept]; exact h1
        · rw [hrun.point]; exact h2
  obtain ⟨A', b0, hm⟩ := hmade
  obtain ⟨hbf, -, -⟩ := hrun.made hm
  obtain ⟨c, b1, hcr, hof, hcw, hct, -, -, -, hsx, haf⟩ := hbf.ex
  obtain ⟨b', l, hpop, -, -⟩ := C41_terminates hso ho hcr hsx haf et total htot
  have hacc : ∀ fuel, maxEnum et (numActionable A) < fuel → b0.populate o et fuel total = .ok (some (b', l)) := by
    intro fuel hf
    exact hpop fuel (by rw [hof.numActionable]; exact hf)
  have hitems := hbf.accepted (fs := { fs with aset := A', builder := some b' }) hso ho hA hne
    (hacc _ (Nat.lt_succ_self _)) hrun.names hrun.point hrun.coefs hrun.intercept
  have hadd : ∃ fs2, ({ fs with aset := A', builder := some b' } : Flipset K).add l = .ok fs2 := by
    unfold Flipset.add
    rw [mapM_validate_ok hitems, ok_bind]
    dsimp only
    by_cases he : l.isEmpty = true
    · rw [if_pos he]; exact ⟨_, rfl⟩
    · rw [if_neg he]; exact ⟨_, rfl⟩
  obtain ⟨fs2, hadd⟩ := hadd
  refine ⟨fs2, fun fuel hf => ?_⟩
  have hp := hacc fuel hf
  unfold Flipset.populate
  rcases hm with ⟨m1, rfl⟩ | ⟨m1, c', m2, m3, rfl⟩
  · simp only [m1, hp]
    have : ({ fs with builder := some b' } : Flipset K) = { fs with aset := fs.aset, builder := some b' } := rfl
    rw [← this] at hadd
    simp only [hadd]
  · simp only [m1, m2, m3, hp, hadd]

/-- **C59.**  For a denied point, once the builder could be set up, `populate` always succeeds: no item
found is rejected, and the loop ends. -/
theorem C59_populate (hso : SetOrderOk ext) (ho : o.Sound) (hA : A.Reachable ext)
    (hden : (A.yDesired : K) * (dot w x + t) < 0) (h : (mkFlipset be A x w t none).Used ext o fs)
    {ct : CostType}
    (hb : (∃ b, fs.builder = some b) ∨ ∃ c b1, mkBuilder be ct fs.aset w t = .ok c ∧ c.setX ext x = (b1, .ok ()))
    (et : EnumType) (total : Option ℕ) (htot : ∀ k, total = some k → 1 ≤ k) :
    ∃ fs', ∀ fuel, maxEnum et (numActionable A) < fuel →
      fs.populate ext o fuel total et ct = some (fs', .ok ()) :=
  populate_succeeds hso ho hA (fun _ h2 => (denied_differs hA.wf.y hden h2.score).2) h hb et total htot

/-! ## C53 -/

theorem popLoop_acc {et : EnumType} {fuel : ℕ} {total : Option ℕ} {b b' : Builder K} {acc l : List (Info K)}
    (h : b.popLoop o et fuel total acc = some (b', l)) : ∃ l', l = acc ++ l' := by
  induction fuel generalizing total b acc with
  | zero =>
    cases total with
    | none => simp [Builder.popLoop] at h
    | some k => cases k with
      | zero => simp only [Builder.popLoop] at h; cases h; exact ⟨[], by simp⟩
      | succ k => simp [Builder.popLoop] at h
  | succ fuel ih =>
    have step : ∀ total' : Option ℕ, (match (b.solve o).reported with
        | none => some (b.solve o, acc)
        | some σ => Builder.popLoop o et fuel total' ((b.solve o).removeSolution et σ)
            (acc ++ [(b.solve o).solutionInfo])) = some (b', l) → ∃ l', l = acc ++ l' := by
      intro total' h
      cases hr : (b.solve o).reported with
      | none => rw [hr] at h; cases h; exact ⟨[], by simp⟩
      | some σ =>
        rw [hr] at h
        obtain ⟨l', rfl⟩ := ih h
        exact ⟨_, by rw [List.append_assoc]⟩
    cases total with
    | none => exact step none h
    | some k => cases k with
      | zero => simp only [Builder.popLoop] at h; cases h; exact ⟨[], by simp⟩
      | succ k => exact step _ h

/-- The first item of an enumeration is what `fit` would have returned; if there is none, `fit` would have
reported `feasible = False`. -/
theorem populate_head {et : EnumType} {fuel : ℕ} {total : Option ℕ} {b b' : Builder K} {l : List (Info K)}
    (h : b.populate o et fuel total = .ok (some (b', l))) : ∃ i, b.fit o = .ok (b.solve o, i) ∧
      ((l = [] ∧ i.feasible = false) ∨ ∃ l', l = i :: l' ∧ (b.solve o).reported ≠ none) := by
  obtain ⟨⟨m, hm⟩, htot, hl⟩ := populate_ok h
  refine ⟨(b.solve o).solutionInfo, by unfold Builder.fit; rw [hm], ?_⟩
  have step : ∀ (fuel : ℕ) (total' : Option ℕ), (match (b.solve o).reported with
      | none => some (b.solve o, [])
      | some σ => Builder.popLoop o et fuel total' ((b.solve o).removeSolution et σ)
          ([] ++ [(b.solve o).solutionInfo])) = some (b', l) →
      ((l = [] ∧ (b.solve o).solutionInfo.feasible = false) ∨
        ∃ l', l = (b.solve o).solutionInfo :: l' ∧ (b.solve o).reported ≠ none) := by
    intro fuel total' h
    cases hr : (b.solve o).reported with
    | none =>
      rw [hr] at h; cases h
      refine Or.inl ⟨rfl, ?_⟩
      unfold Builder.solutionInfo
      rw [hr]; rfl
    | some σ =>
      rw [hr] at h
      obtain ⟨l', rfl⟩ := popLoop_acc h
      exact Or.inr ⟨l', by simp, by simp⟩
  cases fuel with
  | zero =>
    cases total with
    | none => simp [Builder.popLoop] at hl
    | some k => cases k with
      | zero => exact absurd (htot 0 rfl) (by omega)
      | succ k => simp [Builder.popLoop] at hl
  | succ fuel =>
    cases total with
    | none => exact step fuel none hl
    | some k => cases k with
      | zero => exact absurd (htot 0 rfl) (by omega)
      | succ k => exact step fuel _ hl

/-- **C53** (partial).  The first `populate(cost_type = ct)` of a flipset, in regular situations at a denied
point with an exact solver: all items report the cost of their changes for cost type `ct` (sum, or maximum);
if there are no items there is no recourse; otherwise the first item has the smallest possible sum (for `max`:
its maximum exceeds that of any other recourse by less than every cost step, as in C27).  Missing from the
full property: later calls, for which it is false (`C53_later_refuted`). -/
theorem C53_first_partial (hso : SetOrderOk ext) (hlog : LogOk ext) (ho : o.Exact) (hA : A.Reachable ext)
    {ct : CostType} {c : Builder K} (hc : mkBuilder be ct A w t = .ok c) (hreg : Regular ext c x)
    (hden : Denied c x) {fuel : ℕ} {total : Option ℕ} {et : EnumType}
    (hp : (mkFlipset be A x w t none).populate ext o fuel total et ct = some (fs', .ok ())) :
    (∀ i ∈ fs'.items, ∃ v a cs, i.cost = .fin v ∧ i.actions = some a ∧ i.costs = some cs ∧
      IsLimitedRecourse A w t x a 1 (numActionable A) ∧ ActionCosts ext ct A x a cs ∧
      (ct ≠ .max → v = cs.sum) ∧ (ct = .max → v ∈ cs ∧ ∀ u ∈ cs, u ≤ v)) ∧
    (fs'.items = [] → ¬ ∃ a, IsLimitedRecourse A w t x a 1 (numActionable A)) ∧
    ∀ i l, fs'.items = i :: l → ∃ v, i.cost = .fin v ∧
      (ct ≠ .max → ∀ a' cs', IsLimitedRecourse A w t x a' 1 (numActionable A) → ActionCosts ext ct A x a' cs' →
        v ≤ cs'.sum) ∧
      (ct = .max → ∀ a' cs' M', IsLimitedRecourse A w t x a' 1 (numActionable A) → ActionCosts ext ct A x a' cs' →
        M' ∈ cs' → (∀ u ∈ cs', u ≤ M') → ∀ γ, CostStep ext c x γ → v < M' + γ) := by
  obtain ⟨g1, g2, g3, g4, g5, g6, g7⟩ := mkBuilder_offers hA hc
  have hcr : c.Reachable ext := Builder.Reachable.mk hA hc
  rcases populate_cases hp with ⟨er, h1, -⟩ | ⟨er, c', b0, h1, -⟩ | ⟨er, A', b0, h1, -⟩ |
      ⟨er, A', b0, b, infos, h1, -⟩ | ⟨A', b0, b, infos, -, hm, hpop, ha⟩
  · cases h1
  · cases h1
  · cases h1
  · cases h1
  have hsx : c.setX ext x = (b0, .ok ()) := by
    rcases hm with ⟨m1, -⟩ | ⟨-, c', m2, m3, -⟩
    · cases m1
    · have : c' = c := by
        have h2 : mkBuilder be ct A w t = .ok c' := m2
        rw [hc] at h2; exact (Except.ok.inj h2).symm
      rw [this] at m3; exact m3
  have hitems : fs'.items = infos := by
    obtain ⟨-, rfl⟩ := flipAdd_ok ha
    by_cases hl : infos.isEmpty = true
    · rw [if_pos hl, List.isEmpty_iff.mp hl]; rfl
    · rw [if_neg hl, (resort_fields _).1]; rfl
  rw [hitems]
  obtain ⟨i0, hfit, hhead⟩ := populate_head hpop
  obtain ⟨feats, f1, f2, f3⟩ := Posed.setX hso hcr.ok hsx
  refine ⟨?_, ?_, ?_⟩
  · obtain ⟨tr, he, htr, -⟩ := f3.popLoop f2 ho.1 (populate_ok hpop).2.2
    rw [List.nil_append] at he
    intro i hi
    rw [he] at hi
    obtain ⟨q, hq, rfl⟩ := List.mem_map.mp hi
    obtain ⟨k1, -, k3⟩ := htr.mem q hq
    obtain ⟨-, k4, -⟩ := htr.best ho.2 q hq
    have hrec := choice_limited hso hcr.ok f1 hreg k1
    have hac := regular_actionCosts hso hcr.ok hlog f1 hreg k1.lt
    rw [g2, g3, g7] at hrec
    have hac' := g1.actionCosts.mp hac
    rw [g4] at hac'
    have hbt : (c.buildArgs x feats).costType = ct := g4
    have hrec' := g1.isLimited.mp hrec
    rw [g2] at hac' k3
    refine ⟨_, _, _, k4, k3.actions, k3.costs, hrec', hac', ?_, ?_⟩
    · intro hne
      rw [if_neg (by rw [hbt]; exact hne)]
      have := cstVec_sum (κ := q.1) f2
      rw [g2] at this
      exact this.symm
    · intro heq
      rw [if_pos (by rw [hbt]; exact heq)]
      have := choiceMax_cst f2 k1.lt (le_trans (le_max_right _ _) k1.lo)
      rw [g2] at this
      exact this
  · intro hnil
    rcases hhead with ⟨-, hf⟩ | ⟨l', he, -⟩
    · have := (C25_no_recourse hso hlog ho hcr hreg hden hsx .refl hfit).1.mp hf
      rw [g2, g3, g7] at this
      exact fun ⟨a, har⟩ => this ⟨a, g1.isLimited.mpr har⟩
    · rw [hnil] at he; cases he
  · intro i l he
    rcases hhead with ⟨hn, -⟩ | ⟨l', he', hrep⟩
    · rw [hn] at he; cases he
    · rw [he'] at he
      have hii : i0 = i := (List.cons.inj he).1
      subst hii
      have hfe : i0.feasible = true := by
        obtain ⟨-, -, rfl⟩ := fit_ok hfit
        rcases f3.solved f2 ho.1 with ⟨hnone, -, -⟩ | ⟨σ, κ, -, -, -, -, hr, -⟩
        · exact absurd hnone hrep
        · exact hr.feasible
      by_cases hmx : ct = .max
      · obtain ⟨v, a, cs, k1, -, -, -, -, -, -, k8⟩ :=
          C27_max_partial hso hlog ho hcr hreg hden (g4.trans hmx) hsx .refl hfit hfe
        refine ⟨v, k1, (fun hne => absurd hmx hne), fun _ a' cs' M' har hcs hM hM' γ hγ => ?_⟩
        rw [g2, g3, g4, g7] at k8
        exact (k8 a' cs' M' (g1.isLimited.mpr har) (g1.actionCosts.mpr hcs) hM hM').1 γ hγ
      · obtain ⟨v, a, cs, k1, -, -, -, -, -, k7⟩ :=
          C26_sum_minimal hso hlog ho hcr hreg hden (by rw [g4]; exact hmx) hsx .refl hfit hfe
        refine ⟨v, k1, (fun _ a' cs' har hcs => ?_), fun hmx' => absurd hmx' hmx⟩
        rw [g2, g3, g4, g7] at k7
        exact k7 a' cs' (g1.isLimited.mpr har) (g1.actionCosts.mpr hcs)

end Recourse
