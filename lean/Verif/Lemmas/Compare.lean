import Verif.Lemmas.FeatSpec
import Verif.Lemmas.Exchange
import Verif.Lemmas.History
import Verif.Lemmas.Offers

/-!
# Comparing two builders

Programs whose features offer the same moves, and what exact solvers answer on them.
-/

set_option linter.unusedSectionVars false

namespace Recourse

variable {K : Type} [Field K] [LinearOrder K] [IsStrictOrderedRing K] [FloorRing K]

variable {ext : Ext K}

/-- Two features of two programs offer the same moves. -/
structure SameMoves (f f' : Feat K) : Prop where
  idx : f'.idx = f.idx
  actions : f'.actions = f.actions
  kNull : f'.kNull = f.kNull

theorem forall₂_mapM {α β γ : Type} {F : α → Except Err β} {G : α → Except Err γ} {R : β → γ → Prop} {l : List α}
    {r : List β} {s : List γ} (hr : l.mapM F = .ok r) (hs : l.mapM G = .ok s)
    (h : ∀ a ∈ l, ∀ u v, F a = .ok u → G a = .ok v → R u v) : List.Forall₂ R r s := by
  induction l generalizing r s with
  | nil => cases hr; cases hs; exact .nil
  | cons a l ih =>
    obtain ⟨u, r', h1, h2, rfl⟩ := mapM_ok_cons.mp hr
    obtain ⟨v, s', h3, h4, rfl⟩ := mapM_ok_cons.mp hs
    exact .cons (h a (List.mem_cons_self ..) u v h1 h3)
      (ih h2 h4 fun b hb => h b (List.mem_cons_of_mem _ hb))

section
variable {feats feats' : List (Feat K)} (h : List.Forall₂ SameMoves feats feats') {κ : ℕ → ℕ}
include h

theorem SameMoves.choice : Choice feats κ ↔ Choice feats' κ := by
  unfold Choice
  induction h with
  | nil => simp
  | cons h _ ih => simp only [List.forall_mem_cons, ih, h.idx, h.actions]

theorem SameMoves.size : choiceSize feats' κ = choiceSize feats κ := by
  unfold choiceSize
  induction h with
  | nil => rfl
  | cons h _ ih => rw [List.countP_cons, List.countP_cons, ih, h.idx]

theorem SameMoves.getElem? (j : ℕ) : (feats[j]? = none ∧ feats'[j]? = none) ∨
    ∃ f f', feats[j]? = some f ∧ feats'[j]? = some f' ∧ SameMoves f f' := by
  induction h generalizing j with
  | nil => exact .inl ⟨rfl, rfl⟩
  | cons h _ ih =>
    cases j with
    | zero => exact .inr ⟨_, _, rfl, rfl, h⟩
    | succ j => exact ih j

theorem SameMoves.limit {c : SubsetLimit} (hl : LimitOK feats κ c) : LimitOK feats' κ c := by
  obtain ⟨fs, h1, h2, h3⟩ := hl
  have key : ∀ (is : List ℕ) (fs : List (Feat K)), is.map (feats[·]?) = fs.map some →
      ∃ fs' : List (Feat K), is.map (feats'[·]?) = fs'.map some ∧
        (fs'.countP fun f => decide (κ f.idx ≠ f.kNull)) = fs.countP fun f => decide (κ f.idx ≠ f.kNull) := by
    intro is
    induction is with
    | nil => intro fs hfs; exact ⟨[], rfl, by cases fs with | nil => rfl | cons => simp at hfs⟩
    | cons i is ih =>
      intro fs hfs
      cases fs with
      | nil => simp at hfs
      | cons f fs =>
        simp only [List.map_cons, List.cons.injEq] at hfs
        obtain ⟨fs', g1, g2⟩ := ih fs hfs.2
        rcases SameMoves.getElem? h i with ⟨hn, -⟩ | ⟨u, v, hu, hv, huv⟩
        · rw [hn] at hfs; exact absurd hfs.1 (by simp)
        · rw [hu] at hfs
          obtain rfl := Option.some.inj hfs.1
          refine ⟨v :: fs', by simp only [List.map_cons, hv, g1], ?_⟩
          rw [List.countP_cons, List.countP_cons, g2, huv.idx, huv.kNull]
  obtain ⟨fs', g1, g2⟩ := key _ _ h1
  exact ⟨fs', g1, by rw [g2]; exact h2, by rw [g2]; exact h3⟩

end

/-- Choices carry over if the score does. -/
theorem ChoiceOK.transfer {p p' : BuildArgs K} (h : List.Forall₂ SameMoves p.feats p'.feats)
    (hlo : p'.minItems = p.minItems) (hhi : p'.maxItems = p.maxItems) (hlim : p'.limits = p.limits) {κ : ℕ → ℕ}
    (hs : if 0 < p'.yDesired then 0 ≤ p'.score + choiceGain p'.feats κ else p'.score + choiceGain p'.feats κ ≤ 0)
    (hκ : ChoiceOK p κ) : ChoiceOK p' κ where
  lt := (SameMoves.choice h).mp hκ.lt
  score := hs
  lo := by rw [SameMoves.size h, hlo]; exact hκ.lo
  hi := by rw [SameMoves.size h, hhi]; exact hκ.hi
  limits := by rw [hlim]; exact fun c hc => SameMoves.limit h (hκ.limits c hc)

/-- What exact solvers answer on two programs, the second admitting every choice of the first. -/
theorem posed_feasible {n n' : ℕ} {be be' : Backend} {p p' : BuildArgs K} {b b' : Builder K} {o o' : Oracle K}
    (hok : FeatsOK n p.feats) (hok' : FeatsOK n' p'.feats) (hp : Posed n be p (fun _ => True) b)
    (hp' : Posed n' be' p' (fun _ => True) b') (ho : o.Sound) (ho' : o'.Exact)
    (himp : ∀ κ, ChoiceOK p κ → ChoiceOK p' κ) (hf : (b.solve o).solutionInfo.feasible = true) :
    (b'.solve o').solutionInfo.feasible = true := by
  rcases hp.solved hok ho with ⟨-, he, -⟩ | ⟨σ, κ, -, -, hk, -, hr, -⟩
  · rw [he] at hf; cases hf
  · rcases hp'.solved hok' ho'.1 with ⟨-, -, hn⟩ | ⟨σ', κ', -, -, -, -, hr', -⟩
    · exact absurd ⟨κ, himp κ hk, trivial⟩ (hn ho'.2)
    · exact hr'.feasible

/-- Objective values of two programs, the second admitting every choice of the first at the same cost. -/
theorem posed_bound {n n' : ℕ} {be be' : Backend} {p p' : BuildArgs K} {b b' : Builder K} {o o' : Oracle K}
    (hok : FeatsOK n p.feats) (hok' : FeatsOK n' p'.feats) (hp : Posed n be p (fun _ => True) b)
    (hp' : Posed n' be' p' (fun _ => True) b') (ho : o.Exact) (ho' : o'.Exact)
    (himp : ∀ κ, ChoiceOK p κ → ChoiceOK p' κ) (hct : p'.costType = p.costType)
    (hobj : ∀ κ, choiceObj p.costType p'.feats κ = choiceObj p.costType p.feats κ)
    (hf : (b.solve o).solutionInfo.feasible = true) :
    ∃ u u', (b.solve o).solutionInfo.upperbound = .fin u ∧ (b'.solve o').solutionInfo.upperbound = .fin u' ∧
      u' ≤ u ∧ (p.costType ≠ .max → (b.solve o).solutionInfo.cost = .fin u ∧
        (b'.solve o').solutionInfo.cost = .fin u') := by
  rcases hp.solved hok ho.1 with ⟨-, he, -⟩ | ⟨σ, κ, -, -, hk, -, hr, hb⟩
  · rw [he] at hf; cases hf
  · rcases hp'.solved hok' ho'.1 with ⟨-, -, hn⟩ | ⟨σ', κ', -, -, -, -, hr', hb'⟩
    · exact absurd ⟨κ, himp κ hk, trivial⟩ (hn ho'.2)
    · have hb := hb ho.2
      have hb' := hb' ho'.2
      refine ⟨_, _, hb.bound, hb'.bound, ?_, fun hm => ?_⟩
      · have := hb'.least κ (himp κ hk) trivial
        rw [hct, hobj, hobj] at this
        rw [hct, hobj]; exact this
      · obtain ⟨h1, h2⟩ := hr.sum hm
        obtain ⟨h3, h4⟩ := hr'.sum (hct ▸ hm)
        rw [h1, h3, ← h2, ← h4]
        exact ⟨hb.bound, hb'.bound⟩

/-! ## New builders for the same action set -/

theorem mkBuilder_parts {be : Backend} {ct : CostType} {A : ActionSet K} {w : List K} {t : K} {b : Builder K}
    (h : mkBuilder be ct A w t = .ok b) :
    (if A.alignmentKnown then Except.ok A else A.setAlignment w) = .ok b.aset ∧ b.coefs = w ∧ b.intercept = t ∧
    b.costType = ct ∧ b.varNames = b.aset.elems.map (·.name) ∧ b.minItems = 0 ∧
    b.maxItems = ((List.range b.aset.elems.length).filter fun j =>
      match b.aset.elems[j]? with | some e => e.actionable | none => false).length := by
  unfold mkBuilder at h
  obtain ⟨-, -, h⟩ := bind_ok_iff.mp h
  dsimp only at h
  by_cases hk : A.alignmentKnown = true
  · rw [if_pos hk] at h
    rw [if_pos hk]
    cases h
    exact ⟨rfl, rfl, rfl, rfl, rfl, rfl, rfl⟩
  · rw [if_neg hk] at h
    rw [if_neg hk]
    obtain ⟨A', hA', h'⟩ := bind_ok_iff.mp h
    cases h'
    exact ⟨hA', rfl, rfl, rfl, rfl, rfl, rfl⟩

theorem sgn_mul_pos {c : K} (hc : 0 < c) (w : K) : sgn (c * w) = sgn w := by
  unfold sgn
  rcases lt_trichotomy w 0 with h | h | h
  · have : c * w < 0 := mul_neg_of_pos_of_neg hc h
    simp [h, this, h.le.not_gt, this.le.not_gt]
  · simp [h]
  · have : 0 < c * w := mul_pos hc h
    simp [h, this, h.le.not_gt, this.le.not_gt]

theorem setAlignment_scale {A : ActionSet K} {w : List K} {c : K} (hc : 0 < c) :
    A.setAlignment (w.map (c * ·)) = A.setAlignment w := by
  unfold ActionSet.setAlignment
  rw [List.length_map, List.map_map]
  have : ((fun c => if 0 < A.yDesired then sgn c else -(sgn c)) ∘ fun v => c * v) =
      fun c : K => if 0 < A.yDesired then sgn c else -(sgn c) := by
    funext v
    simp only [Function.comp_apply, sgn_mul_pos hc]
  rw [this]

/-- Builders for one action set and classifiers with the same direction share everything but scale. -/
theorem mkBuilder_scale {be be' : Backend} {ct ct' : CostType} {A : ActionSet K} {w : List K} {t t' c : K}
    {b b' : Builder K} (hc : 0 < c) (h : mkBuilder be ct A w t = .ok b)
    (h' : mkBuilder be' ct' A (w.map (c * ·)) t' = .ok b') :
    b'.aset = b.aset ∧ b'.varNames = b.varNames ∧ b'.coefs = b.coefs.map (c * ·) ∧ b'.minItems = b.minItems ∧
      b'.maxItems = b.maxItems := by
  obtain ⟨h1, h2, -, -, h3, h4, h5⟩ := mkBuilder_parts h
  obtain ⟨g1, g2, -, -, g3, g4, g5⟩ := mkBuilder_parts h'
  rw [setAlignment_scale hc, h1] at g1
  have ha : b'.aset = b.aset := (Except.ok.inj g1).symm
  refine ⟨ha, by rw [g3, h3, ha], by rw [g2, h2], by rw [g4, h4], by rw [g5, h5, ha]⟩

/-! ## Scaled classifiers -/

/-- The features of two builders that differ in scale (and intercept) only. -/
theorem buildInfo_scale {b b' : Builder K} {x : List K} {c : K} {feats feats' : List (Feat K)}
    (ha : b'.aset = b.aset) (hv : b'.varNames = b.varNames) (hw : b'.coefs = b.coefs.map (c * ·))
    (hct : b'.costType = b.costType) (h : b.buildInfo ext x = .ok feats) (h' : b'.buildInfo ext x = .ok feats') :
    List.Forall₂ (fun f f' => f' = { f with coef := c * f.coef }) feats feats' := by
  unfold Builder.buildInfo at h h'
  simp only [bind_ok_iff, pyAssert_ok_iff] at h h'
  obtain ⟨grid, hg, fs, hfs, _, -, h⟩ := h
  obtain ⟨grid', hg', fs', hfs', _, -, h'⟩ := h'
  cases h; cases h'
  rw [ha, hg] at hg'
  cases hg'
  rw [ha] at hfs'
  refine forall₂_mapM hfs hfs' ?_
  intro g _ f f' hf hf'
  obtain ⟨ac, xj, a1, a2, a3, a4, a5, a6, a7, a8⟩ := mkFeat_ok hf
  obtain ⟨ac', xj', d1, d2, d3, d4, d5, d6, d7, d8⟩ := mkFeat_ok hf'
  rw [hv] at d2 d3 d6
  rw [hct, a1] at d1
  cases d1
  rw [a3] at d3
  cases d3
  rw [a4] at d4
  rw [hw, List.getElem?_map, a2] at d2
  have e1 : f.kNull = f'.kNull := Except.ok.inj d4
  have e2 : c * f.coef = f'.coef := by simpa using d2
  obtain ⟨n, i, w, l, m, k⟩ := f
  obtain ⟨n', i', w', l', m', k'⟩ := f'
  simp only at *
  subst a5 a6 a7 a8 d5 d6 d7 d8 e1 e2
  rfl

theorem scale_moves {c : K} {feats feats' : List (Feat K)}
    (h : List.Forall₂ (fun f f' => f' = { f with coef := c * f.coef }) feats feats') :
    List.Forall₂ SameMoves feats feats' := by
  refine h.imp ?_
  rintro f f' rfl
  exact ⟨rfl, rfl, rfl⟩

theorem scale_eq {c : K} {feats feats' : List (Feat K)}
    (h : List.Forall₂ (fun f f' => f' = { f with coef := c * f.coef }) feats feats') :
    feats' = feats.map fun f => { f with coef := c * f.coef } := by
  induction h with
  | nil => rfl
  | cons h _ ih => rw [List.map_cons, h, ih]

theorem scale_obj {c : K} {feats feats' : List (Feat K)}
    (h : List.Forall₂ (fun f f' => f' = { f with coef := c * f.coef }) feats feats') (ct : CostType) (κ : ℕ → ℕ) :
    choiceObj ct feats' κ = choiceObj ct feats κ := by
  have e := scale_eq h
  subst e
  have h1 : ∀ F : Feat K → K, (∀ f, F { f with coef := c * f.coef } = F f) →
      (feats.map fun f => ({ f with coef := c * f.coef } : Feat K)).map F = feats.map F := by
    intro F hF
    rw [List.map_map]
    exact List.map_congr_left fun f _ => hF f
  unfold choiceObj choiceMax choiceSum epsilon
  rw [h1 (fun f => f.cst κ) fun f => rfl, h1 (fun f => npMin (npDiff f.costs)) fun f => rfl,
    h1 (fun f => npMax f.costs) fun f => rfl]
  simp only [List.isEmpty_iff, List.map_eq_nil_iff]

theorem scale_gain {c : K} {feats feats' : List (Feat K)}
    (h : List.Forall₂ (fun f f' => f' = { f with coef := c * f.coef }) feats feats') (κ : ℕ → ℕ) :
    choiceGain feats' κ = c * choiceGain feats κ := by
  have e := scale_eq h
  subst e
  unfold choiceGain
  clear h
  induction feats with
  | nil => simp
  | cons f t ih =>
    simp only [List.map_cons, List.sum_cons, ih, mul_add, mul_assoc]
    rfl

theorem dot_scale (c : K) (w x : List K) : dot (w.map (c * ·)) x = c * dot w x := by
  induction w generalizing x with
  | nil => simp [dot]
  | cons a w ih =>
    cases x with
    | nil => simp [dot]
    | cons v x =>
      have := ih x
      unfold dot at this ⊢
      simp only [List.map_cons, List.zipWith_cons_cons, List.sum_cons, this]
      ring

end Recourse
