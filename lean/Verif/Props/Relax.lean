import Verif.Props.Audit

/-!
# Following the advice, and relaxing restrictions (C70, C71)
-/

set_option linter.unusedSectionVars false

namespace Recourse

variable {K : Type} [Field K] [LinearOrder K] [IsStrictOrderedRing K] [FloorRing K]

variable {ext : Ext K} {o o' : Oracle K} {b0 b1 b b' d0 d1 d d' : Builder K} {x : List K} {i i' : Info K}
  {ad ad' : Auditor K} {ι : Type} {X : List (ι × List K)} {T : List (ι × AuditRow K)}

/-! ## C70 -/

/-- **C70** (partial).  Whoever carries out a recommended action is approved by an audit with the same classifier and
desired outcome: the entry is NaN, NaN, unless the desired outcome is -1 and the new score is exactly 0, in which
case the row is audited.  Any auditor and solvers.  Missing from the full property: that last case, where it is false
(`C70_done_refuted`). -/
theorem C70_done_partial (hso : SetOrderOk ext) (ho : o.Sound) (hr : b0.Reachable ext)
    (hx : b0.setX ext x = (b1, .ok ())) (ha : b1.After o b) (hf : b.fit o = .ok (b', i)) (hi : i.feasible = true)
    (hra : ad.Reachable ext) (hw : ad.coefs = b0.coefs) (ht : ad.intercept = b0.intercept)
    (h : ad.audit ext o' X b0.aset.yDesired = (ad', .ok T)) : ∃ a, i.actions = some a ∧
    ∀ (k : ℕ) (l l' : ι) (row : AuditRow K), X[k]? = some (l, vadd x a) → T[k]? = some (l', row) →
      (row = ⟨none, .nan⟩ ↔ ¬ (b0.aset.yDesired = -1 ∧ b0.score (vadd x a) = 0)) := by
  obtain ⟨a, h1, h2⟩ := C22_actionable hso ho hr hx ha hf hi
  refine ⟨a, h1, fun k l l' row hX hT => ?_⟩
  obtain ⟨e1, e2⟩ := audit_entry hra h hX hT
  have hs := h2.score
  unfold ReachesScore at hs
  change (if 0 < b0.aset.yDesired then 0 ≤ b0.score (vadd x a) else b0.score (vadd x a) ≤ 0) at hs
  have hout : HasOutcome b0.aset.yDesired ad.coefs ad.intercept (vadd x a) ↔
      ¬ (b0.aset.yDesired = -1 ∧ b0.score (vadd x a) = 0) := by
    rw [hw, ht]
    change (if 0 < b0.aset.yDesired then 0 ≤ b0.score (vadd x a) else b0.score (vadd x a) < 0) ↔ _
    rcases hr.ok.aset.wf.y with hy | hy
    · rw [hy] at hs ⊢
      simp only [Int.zero_lt_one, if_true] at hs ⊢
      simp [hs]
    · rw [hy] at hs ⊢
      rw [if_neg (by decide)] at hs ⊢
      constructor
      · intro hlt hh; rw [hh.2] at hlt; exact lt_irrefl _ hlt
      · intro hne
        exact lt_of_le_of_ne hs fun h0 => hne ⟨rfl, h0⟩
  rw [← hout]
  constructor
  · intro hrow
    by_contra hno
    obtain ⟨n, c1, c2, j, -, -, rfl⟩ := e2 hno
    have := congrArg AuditRow.feasible hrow
    exact absurd this (by simp [Info.row])
  · exact e1

/-- The full C70 is false: one binary feature, `w = -1`, `t = 1`, desired outcome -1.  At 0 every exact solver
recommends to change the feature to 1; whoever does so is reported as having no recourse. -/
theorem C70_done_refuted (be : Backend) : ∃ (ad : Auditor ℚ) (b1 : Builder ℚ), ad.Reachable exExt ∧
    ad.builder.aset.yDesired = -1 ∧ ad.builder.setX exExt [0] = (b1, .ok ()) ∧ ∀ o : Oracle ℚ, o.Exact →
      (∃ b' i, b1.fit o = .ok (b', i) ∧ i.feasible = true ∧ i.actions = some [1]) ∧
      ∃ ad' row, ad.audit exExt o [((), [1])] (-1) = (ad', .ok [((), row)]) ∧ row.feasible = some false := by
  have key : ∀ be, ∃ A : ActionSet ℚ,
      mkActionSet [[0], [1]] ["a"] (-1) [] defaultBounds (.str "relative") = .ok A ∧ ∃ ad : Auditor ℚ,
      mkAuditor be A [-1] 1 = .ok ad ∧ ad.coefs = [-1] ∧ ad.intercept = 1 ∧ ad.builder.aset.yDesired = -1 ∧
      (ad.builder.setX exExt [0]).2 = .ok () ∧ (ad.builder.setX exExt [1]).2 = .ok () ∧
      admitted (ad.builder.buildArgs [0] (ad.builder.setX exExt [0]).1.feats) (fun _ => true) ≠ [] ∧
      (∀ κ ∈ optChoices (ad.builder.buildArgs [0] (ad.builder.setX exExt [0]).1.feats) (fun _ => true),
        actVec ad.builder.coefs.length (ad.builder.setX exExt [0]).1.feats κ = [1]) ∧
      optChoices (ad.builder.buildArgs [1] (ad.builder.setX exExt [1]).1.feats) (fun _ => true) = [] := by
    intro be; cases be <;> decide +kernel
  obtain ⟨A, h1, ad, h2, h3, h4, h5, h6, h7, h8, h9, h10⟩ := key be
  have hr : ad.Reachable exExt := .mk (.mk h1) h2
  obtain ⟨hb, hw, ht, -⟩ := hr.inv
  have hno : ¬ HasOutcome (-1) ad.coefs ad.intercept [1] := by rw [h3, h4]; decide +kernel
  refine ⟨ad, _, hr, h5, Prod.ext rfl h6, fun o ho => ⟨?_, ?_⟩⟩
  · obtain ⟨c1, feats, f1, -, f2, c2, j, f3, f4⟩ := exSolve exExt_order hb h6 ho
    rw [f1]
    rw [f2] at h8 h9
    rcases f4 with ⟨h, -⟩ | ⟨κ, hκ, -, hf, hact, -⟩
    · exact absurd h h8
    · exact ⟨c2, j, f3, hf, by rw [hact, h9 κ hκ]⟩
  · obtain ⟨ad', T, hT⟩ := C46_succeeds_partial (o := o) (y := -1) (ext := exExt) hr (X := [((), [1])])
      (by intro p hp; simp at hp; subst hp; simp [h3]) (by simp) ⟨((), [1]), by simp, hno⟩
      (by intro p hp hn; simp at hp; subst hp; exact h7)
    have hlab := (C44_rows hr hT).1
    have hlen : T.length = 1 := by simpa using congrArg List.length hlab
    match T, hlen with
    | [(⟨⟩, row)], _ =>
      refine ⟨ad', row, hT, ?_⟩
      obtain ⟨n, b1, b', i, e1, e2, rfl⟩ := (audit_entry hr hT (k := 0) (l := ()) (x := [1]) (l' := ()) (row := row) rfl rfl).2 hno
      obtain ⟨c1, feats, f1, -, f2, c2, j, f3, f4⟩ := exSolve exExt_order hb h7 (ho.at n)
      rw [e1] at f1; cases f1
      rw [e2] at f3; cases f3
      rw [f2] at h10
      rcases f4 with ⟨-, rfl⟩ | ⟨κ, hκ, -⟩
      · rfl
      · rw [h10] at hκ; simp at hκ

/-- Non-vacuity of `C70_done_partial`: `a + b - 1` at the origin; every exact solver changes one feature, and an audit
of the person before and after the change succeeds. -/
theorem C70_example (be : Backend) : ∃ (ad : Auditor ℚ) (b1 : Builder ℚ), ad.Reachable exExt ∧
    ad.builder.Reachable exExt ∧ ad.coefs = ad.builder.coefs ∧ ad.intercept = ad.builder.intercept ∧
    ad.builder.aset.yDesired = 1 ∧ ad.builder.setX exExt [0, 0] = (b1, .ok ()) ∧ ∀ o : Oracle ℚ, o.Exact →
      ∃ b' i a, b1.fit o = .ok (b', i) ∧ i.feasible = true ∧ i.actions = some a ∧
      ∃ ad' T, ad.audit exExt o [("before", [0, 0]), ("after", vadd [0, 0] a)] 1 = (ad', .ok T) := by
  have key : ∀ be, ∃ ad : Auditor ℚ, exAuditorE be [[0, 0], [1, 1]] ["a", "b"] [1, 1] (-1) = .ok ad ∧
      ad.coefs = [1, 1] ∧ ad.intercept = -1 ∧ ad.builder.aset.yDesired = 1 ∧
      (ad.builder.setX exExt [0, 0]).2 = .ok () ∧
      admitted (ad.builder.buildArgs [0, 0] (ad.builder.setX exExt [0, 0]).1.feats) (fun _ => true) ≠ [] ∧
      ∀ κ ∈ optChoices (ad.builder.buildArgs [0, 0] (ad.builder.setX exExt [0, 0]).1.feats) (fun _ => true),
        actVec ad.builder.coefs.length (ad.builder.setX exExt [0, 0]).1.feats κ ∈ [[1, 0], [0, 1]] := by
    intro be; cases be <;> decide +kernel
  obtain ⟨ad, h1, h2, h3, h4, h5, h6, h7⟩ := key be
  have hr : ad.Reachable exExt := exAuditorE_reachable h1
  obtain ⟨hb, hw, ht, -⟩ := hr.inv
  refine ⟨ad, _, hr, hb, hw.symm, ht.symm, h4, Prod.ext rfl h5, fun o ho => ?_⟩
  obtain ⟨c1, feats, f1, -, f2, c2, j, f3, f4⟩ := exSolve exExt_order hb h5 ho
  rw [f1]
  rw [f2] at h6 h7
  rcases f4 with ⟨h, -⟩ | ⟨κ, hκ, -, hf, hact, -⟩
  · exact absurd h h6
  refine ⟨c2, j, _, f3, hf, hact, ?_⟩
  have ha := h7 κ hκ
  have hno : ¬ HasOutcome 1 ad.coefs ad.intercept [0, 0] := by rw [h2, h3]; decide +kernel
  refine C46_succeeds_partial (o := o) (y := 1) (ext := exExt) hr
    (X := [("before", [0, 0]), ("after", vadd [0, 0] (actVec ad.builder.coefs.length feats κ))])
    ?_ (Or.inl rfl) ⟨("before", [0, 0]), by simp, hno⟩ ?_
  · intro p hp
    simp only [List.mem_cons, List.not_mem_nil, or_false] at hp ha
    rcases hp with rfl | rfl
    · simp [h2]
    · rcases ha with ha | ha <;> simp [ha, h2, vadd]
  · intro p hp hn
    simp only [List.mem_cons, List.not_mem_nil, or_false] at hp ha
    rcases hp with rfl | rfl
    · exact h5
    · exfalso
      apply hn
      rw [h2, h3]
      rcases ha with ha | ha <;> rw [ha] <;> decide +kernel

/-! ## C71 -/

theorem Relaxes.recourse {A A' : ActionSet K} (h : Relaxes ext A A') (hl : A.elems.length = A'.elems.length)
    {w a : List K} {t : K} {lo hi hi' : ℕ} (hhi : hi ≤ hi') (ha : IsLimitedRecourse A w t x a lo hi) :
    IsLimitedRecourse A' w t x a lo hi' where
  permitted := by
    refine ⟨ha.permitted.1, fun j e' xj aj he' hx haj => ?_⟩
    have hj : j < A.elems.length := by rw [hl]; exact (List.getElem?_eq_some_iff.mp he').1
    have he := List.getElem?_eq_getElem hj
    obtain ⟨h1, -, h3⟩ := h.feature j _ e' he he'
    rcases ha.permitted.2 j _ xj aj he hx haj with hp | ⟨hp1, hp2, hp3⟩
    · exact .inl hp
    · obtain ⟨h4, h5⟩ := h3 hp1
      refine .inr ⟨h4, by rw [h1]; exact hp2, ?_⟩
      rcases h5 with h5 | h5
      · rw [h5]; exact ⟨fun h => absurd h (lt_irrefl _), fun h => absurd h (lt_irrefl _)⟩
      · rw [h5]; exact hp3
  min := ha.min
  max := le_trans ha.max hhi
  score := by rw [h.y]; exact ha.score
  limits := by
    intro k' hk'
    obtain ⟨k, hk, h1, h2, h3⟩ := h.limits k' hk'
    have := ha.limits k hk
    have hn : numNonzero A' x a k'.names = numNonzero A x a k.names := by
      unfold numNonzero; rw [h.names, h1]
    rw [hn]
    exact ⟨le_trans h2 this.1, le_trans this.2 h3⟩

theorem Relaxes.costs {A A' : ActionSet K} (h : Relaxes ext A A') (hl : A.elems.length = A'.elems.length)
    {a cs : List K} {ct : CostType} (ha : ActionCosts ext ct A x a cs) : ActionCosts ext ct A' x a cs := by
  refine ⟨ha.1, fun j e' xj aj c he' hx haj hc => ?_⟩
  have hj : j < A.elems.length := by rw [hl]; exact (List.getElem?_eq_some_iff.mp he').1
  have he := List.getElem?_eq_getElem hj
  obtain ⟨h1, h2⟩ := ha.2 j _ xj aj c he hx haj hc
  obtain ⟨-, h4, -⟩ := h.feature j _ e' he he'
  refine ⟨h1, fun hne => ?_⟩
  obtain ⟨p, q, g1, g2, g3⟩ := h2 hne
  exact ⟨p, q, by rw [h4]; exact g1, by rw [h4]; exact g2, g3⟩

/-- **C71.**  Lifting restrictions (making features actionable, dropping step directions, widening or removing subset
limits, raising `max_items`) never takes recourse away and never makes it more expensive: if the first builder finds
recourse, so does the second; for `total` and `local` its cost is not larger, for `max` it is larger by less than every
cost step.  Regular situations, denied points, exact solvers, any back ends. -/
theorem C71_relax (hso : SetOrderOk ext) (hlog : LogOk ext) (ho : o.Exact) (ho' : o'.Exact)
    (hr : b0.Reachable ext) (hr' : d0.Reachable ext) (hrel : Relaxes ext b0.aset d0.aset)
    (hw : d0.coefs = b0.coefs) (ht : d0.intercept = b0.intercept) (hct : d0.costType = b0.costType)
    (hhi : b0.maxItems ≤ d0.maxItems) (hreg : Regular ext b0 x) (hreg' : Regular ext d0 x) (hden : Denied b0 x)
    (hx : b0.setX ext x = (b1, .ok ())) (hx' : d0.setX ext x = (d1, .ok ()))
    (ha : b1.Refitted o b) (ha' : d1.Refitted o' d) (hf : b.fit o = .ok (b', i)) (hf' : d.fit o' = .ok (d', i'))
    (hi : i.feasible = true) : i'.feasible = true ∧ ∃ c c', i.cost = .fin c ∧ i'.cost = .fin c' ∧
      (b0.costType ≠ .max → c' ≤ c) ∧ (b0.costType = .max → ∀ γ, CostStep ext d0 x γ → c' < c + γ) := by
  have hl : b0.aset.elems.length = d0.aset.elems.length := by
    rw [hr.ok.aset.wf.length, hr'.ok.aset.wf.length, hrel.names]
  have hden' : Denied d0 x := by
    unfold Denied at hden ⊢; rw [hrel.y, hw, ht]; exact hden
  have hfe : i'.feasible = true := by
    cases hi' : i'.feasible with
    | true => rfl
    | false =>
      exfalso
      have h1 := (C25_no_recourse hso hlog ho hr hreg hden hx ha hf).1
      rw [hi] at h1
      have h2 : ∃ a, IsLimitedRecourse b0.aset b0.coefs b0.intercept x a 1 b0.maxItems := by
        by_contra hno
        exact absurd (h1.mpr hno) (by simp)
      obtain ⟨a, har⟩ := h2
      refine (C25_no_recourse hso hlog ho' hr' hreg' hden' hx' ha' hf').1.mp hi' ⟨a, ?_⟩
      rw [hw, ht]
      exact hrel.recourse hl hhi har
  refine ⟨hfe, ?_⟩
  by_cases hm : b0.costType = .max
  · obtain ⟨c, a, cs, h1, -, -, h4, h5, h6, h7, -⟩ := C27_max_partial hso hlog ho hr hreg hden hm hx ha hf hi
    obtain ⟨c', a', cs', g1, -, -, -, -, -, -, g8⟩ :=
      C27_max_partial hso hlog ho' hr' hreg' hden' (hct.trans hm) hx' ha' hf' hfe
    refine ⟨c, c', h1, g1, fun hne => absurd hm hne, fun _ γ hγ => ?_⟩
    refine (g8 a cs c ?_ ?_ h6 h7).1 γ hγ
    · rw [hw, ht]; exact hrel.recourse hl hhi h4
    · rw [hct]; exact hrel.costs hl h5
  · obtain ⟨c, a, cs, h1, -, -, h4, h5, h6, -⟩ := C26_sum_minimal hso hlog ho hr hreg hden hm hx ha hf hi
    obtain ⟨c', a', cs', g1, -, -, -, -, -, g7⟩ :=
      C26_sum_minimal hso hlog ho' hr' hreg' hden' (by rw [hct]; exact hm) hx' ha' hf' hfe
    refine ⟨c, c', h1, g1, fun _ => ?_, fun h => absurd h hm⟩
    rw [h6]
    refine g7 a cs ?_ ?_
    · rw [hw, ht]; exact hrel.recourse hl hhi h4
    · rw [hct]; exact hrel.costs hl h5

/-- Non-vacuity of C71: `a + 2 b + c - 2` with three binary features, the second one immutable or actionable.  Every exact solver finds recourse in both cases. -/
theorem C71_example (be be' : Backend) (ct : CostType) : ∃ b0 d0 b1 d1 : Builder ℚ, b0.Reachable exExt ∧ d0.Reachable exExt ∧
    Relaxes exExt b0.aset d0.aset ∧ d0.coefs = b0.coefs ∧ d0.intercept = b0.intercept ∧ d0.costType = b0.costType ∧
    b0.maxItems ≤ d0.maxItems ∧ b0.costType = ct ∧
    Regular exExt b0 [0, 0, 0] ∧ Regular exExt d0 [0, 0, 0] ∧ Denied b0 [0, 0, 0] ∧
    b0.setX exExt [0, 0, 0] = (b1, .ok ()) ∧ d0.setX exExt [0, 0, 0] = (d1, .ok ()) ∧
    ∀ o : Oracle ℚ, o.Exact → ∃ b' i d' i', b1.fit o = .ok (b', i) ∧ d1.fit o = .ok (d', i') ∧
      i.feasible = true ∧ i.actions = some [1, 0, 1] ∧ i'.feasible = true ∧ i'.actions = some [0, 1, 0] := by
  have key : ∀ be be' ct, ∃ b0 : Builder ℚ,
      exBuilderE be ct [[0, 0, 0], [1, 1, 1]] ["a", "b", "c"] (fun A => .ok (A.setElemAttr "b" "actionable" (.bool false)).1)
        [1, 2, 1] (-2) = .ok b0 ∧ ∃ d0 : Builder ℚ,
      exBuilderE be' ct [[0, 0, 0], [1, 1, 1]] ["a", "b", "c"] .ok [1, 2, 1] (-2) = .ok d0 ∧
      (d0.aset.yDesired = b0.aset.yDesired ∧ d0.aset.names = b0.aset.names ∧ d0.aset.cons.items = [] ∧
        (b0.aset.elems.zip d0.aset.elems).all (fun q => decide (q.2.grid.vals = q.1.grid.vals ∧
          q.2.table exExt = q.1.table exExt ∧
          (q.1.actionable = true → q.2.actionable = true ∧ (q.2.stepDir = 0 ∨ q.2.stepDir = q.1.stepDir)))) = true) ∧
      d0.coefs = b0.coefs ∧ d0.intercept = b0.intercept ∧ d0.costType = b0.costType ∧ b0.maxItems ≤ d0.maxItems ∧
      b0.costType = ct ∧
      regularB exExt b0 [0, 0, 0] = true ∧ regularB exExt d0 [0, 0, 0] = true ∧ Denied b0 [0, 0, 0] ∧
      (b0.setX exExt [0, 0, 0]).2 = .ok () ∧ (d0.setX exExt [0, 0, 0]).2 = .ok () ∧
      admitted (b0.buildArgs [0, 0, 0] (b0.setX exExt [0, 0, 0]).1.feats) (fun _ => true) ≠ [] ∧
      admitted (d0.buildArgs [0, 0, 0] (d0.setX exExt [0, 0, 0]).1.feats) (fun _ => true) ≠ [] ∧
      (∀ κ ∈ optChoices (b0.buildArgs [0, 0, 0] (b0.setX exExt [0, 0, 0]).1.feats) (fun _ => true),
        actVec b0.coefs.length (b0.setX exExt [0, 0, 0]).1.feats κ = [1, 0, 1]) ∧
      ∀ κ ∈ optChoices (d0.buildArgs [0, 0, 0] (d0.setX exExt [0, 0, 0]).1.feats) (fun _ => true),
        actVec d0.coefs.length (d0.setX exExt [0, 0, 0]).1.feats κ = [0, 1, 0] := by
    intro be be' ct; cases be <;> cases be' <;> cases ct <;> decide +kernel
  obtain ⟨b0, h1, d0, h2, ⟨r1, r2, r3, r4⟩, h3, h4, h5, h6, h7, h8, h9, h10, h11, h12, h13, h14, h15, h16⟩ := key be be' ct
  have hr : b0.Reachable exExt := exBuilderE_reachable h1 fun A A' hA h => by cases h; exact .setElem _ _ _ hA
  have hr' : d0.Reachable exExt := exBuilderE_reachable h2 fun A A' => prep_ok
  refine ⟨b0, d0, _, _, hr, hr', ⟨r1, r2, ?_, ?_⟩, h3, h4, h5, h6, h7, regular_of_b hr.ok exExt_pos h8,
    regular_of_b hr'.ok exExt_pos h9, h10, Prod.ext rfl h11, Prod.ext rfl h12, fun o ho => ?_⟩
  · intro j e e' he he'
    have hz : (b0.aset.elems.zip d0.aset.elems)[j]? = some (e, e') := by
      rw [List.getElem?_zip_eq_some]; exact ⟨he, he'⟩
    have := List.all_eq_true.mp r4 _ (List.mem_of_getElem? hz)
    obtain ⟨q1, q2, q3⟩ := of_decide_eq_true this
    refine ⟨q1, fun v => ?_, q3⟩
    unfold Elem.percentile
    dsimp only at q2
    rw [q2]
  · rw [r3]; intro k hk; simp at hk
  · have answer : ∀ {b : Builder ℚ} {a : List ℚ}, b.Reachable exExt → (b.setX exExt [0, 0, 0]).2 = .ok () →
        admitted (b.buildArgs [0, 0, 0] (b.setX exExt [0, 0, 0]).1.feats) (fun _ => true) ≠ [] →
        (∀ κ ∈ optChoices (b.buildArgs [0, 0, 0] (b.setX exExt [0, 0, 0]).1.feats) (fun _ => true),
          actVec b.coefs.length (b.setX exExt [0, 0, 0]).1.feats κ = a) →
        ∃ b' i, (b.setX exExt [0, 0, 0]).1.fit o = .ok (b', i) ∧ i.feasible = true ∧ i.actions = some a := by
      intro b a hb k1 k2 k3
      obtain ⟨c1, feats, f1, -, f2, c2, j, f3, f4⟩ := exSolve exExt_order hb k1 ho
      rw [f1]
      rw [f2] at k2 k3
      rcases f4 with ⟨h, -⟩ | ⟨κ, hκ, -, hf, hact, -⟩
      · exact absurd h k2
      · exact ⟨c2, j, f3, hf, by rw [hact, k3 κ hκ]⟩
    obtain ⟨b', i, p1, p2, p3⟩ := answer hr h11 h13 h15
    obtain ⟨d', i', q1, q2, q3⟩ := answer hr' h12 h14 h16
    exact ⟨b', i, d', i', p1, q1, p2, p3, q2, q3⟩

end Recourse
