import Verif.Props.Limits
import Verif.Props.Minimal

/-!
# The attributes `min_items` and `max_items` (C72, C73)
-/

set_option linter.unusedSectionVars false

namespace Recourse

variable {K : Type} [Field K] [LinearOrder K] [IsStrictOrderedRing K] [FloorRing K]
  {ext : Ext K} {o : Oracle K} {b0 b1 b2 b3 b b' : Builder K} {x : List K} {i : Info K}

theorem setMinItems_fields (b : Builder K) (k : Option Int) :
    (b.setMinItems k).1.aset = b.aset ∧ (b.setMinItems k).1.coefs = b.coefs ∧
    (b.setMinItems k).1.intercept = b.intercept ∧ (b.setMinItems k).1.maxItems = b.maxItems ∧
    (b.setMinItems k).1.nActionable = b.nActionable ∧ (b.setMinItems k).1.costType = b.costType := by
  obtain ⟨n, h⟩ := setMinItems_eq b k
  rw [h]
  exact ⟨rfl, rfl, rfl, rfl, rfl, rfl⟩

theorem setMaxItems_fields (b : Builder K) (k : Option Int) :
    (b.setMaxItems k).1.aset = b.aset ∧ (b.setMaxItems k).1.coefs = b.coefs ∧
    (b.setMaxItems k).1.intercept = b.intercept ∧ (b.setMaxItems k).1.minItems = b.minItems ∧
    (b.setMaxItems k).1.nActionable = b.nActionable ∧ (b.setMaxItems k).1.costType = b.costType := by
  obtain ⟨n, h⟩ := setMaxItems_eq b k
  rw [h]
  exact ⟨rfl, rfl, rfl, rfl, rfl, rfl⟩

/-- **C72**, reading back: `None` stands for 0 and for the number of actionable features; a number that is not
negative is read back, an upper limit never above the number of actionable features; a negative number is
rejected and changes nothing. -/
theorem C72_read (b : Builder K) :
    ((b.setMinItems none).2 = .ok () ∧ (b.setMinItems none).1.minItems = 0) ∧
    ((b.setMaxItems none).2 = .ok () ∧ (b.setMaxItems none).1.maxItems = b.nActionable) ∧
    (∀ k : ℕ, (b.setMinItems (some (k : Int))).2 = .ok () ∧ (b.setMinItems (some (k : Int))).1.minItems = k) ∧
    (∀ k : ℕ, (b.setMaxItems (some (k : Int))).2 = .ok () ∧
      (b.setMaxItems (some (k : Int))).1.maxItems = min k b.nActionable) ∧
    ∀ k : Int, k < 0 → b.setMinItems (some k) = (b, .error .assertion) ∧
      b.setMaxItems (some k) = (b, .error .assertion) := by
  refine ⟨⟨rfl, rfl⟩, ⟨rfl, rfl⟩, fun k => ?_, fun k => ?_, fun k hk => ?_⟩
  · unfold Builder.setMinItems
    dsimp only
    rw [if_neg (by omega)]
    exact ⟨rfl, rfl⟩
  · unfold Builder.setMaxItems
    dsimp only
    rw [if_neg (by omega)]
    exact ⟨rfl, rfl⟩
  · unfold Builder.setMinItems Builder.setMaxItems
    dsimp only
    rw [if_pos hk, if_pos hk]
    exact ⟨rfl, rfl⟩

/-- **C72**, the current point: the two attributes do not affect the answers for the point already assigned. -/
theorem C72_current (b : Builder K) (k : Option Int) (r : Builder K × Info K) :
    (b.fit o = .ok r → ∃ c, (b.setMinItems k).1.fit o = .ok (c, r.2)) ∧
    (b.fit o = .ok r → ∃ c, (b.setMaxItems k).1.fit o = .ok (c, r.2)) := by
  have key : ∀ b' : Builder K, (∃ n, b' = { b with minItems := n }) ∨ (∃ n, b' = { b with maxItems := n }) →
      b.fit o = .ok r → ∃ c, b'.fit o = .ok (c, r.2) := by
    rintro b' hb' hf
    obtain ⟨c, i⟩ := r
    obtain ⟨m, -, rfl⟩ := fit_ok hf
    obtain ⟨m, hm⟩ := m
    refine ⟨b'.solve o, ?_⟩
    rcases hb' with ⟨n, rfl⟩ | ⟨n, rfl⟩
    all_goals
      unfold Builder.fit
      dsimp only
      rw [hm]
      dsimp only
      unfold Builder.solve
      dsimp only
      rw [hm]
      rfl
  exact ⟨key _ (Or.inl (setMinItems_eq b k)), key _ (Or.inr (setMaxItems_eq b k))⟩

/-- **C72**, the next point: after `min_items = lo` and `max_items = hi` (in either order, with anything that
keeps them), every answer for a newly assigned point changes at least `lo` and at least one, and at most `hi`,
features; when `lo` exceeds `hi` no recourse is reported. -/
theorem C72_next (hso : SetOrderOk ext) (ho : o.Sound) (hr : b0.Reachable ext) (lo hi : ℕ)
    (h12 : b2 = ((b0.setMinItems (some (lo : Int))).1.setMaxItems (some (hi : Int))).1 ∨
      b2 = ((b0.setMaxItems (some (hi : Int))).1.setMinItems (some (lo : Int))).1)
    (hx : b2.setX ext x = (b3, .ok ())) (ha : b3.After o b) (hf : b.fit o = .ok (b', i)) :
    (i.feasible = true → ∃ a, i.actions = some a ∧
      IsRecourse b0.aset b0.coefs b0.intercept x a (max lo 1) hi) ∧
    (hi < lo → i.feasible = false) := by
  have hr2 : b2.Reachable ext := by
    rcases h12 with rfl | rfl
    · exact (hr.minItems _).maxItems _
    · exact (hr.maxItems _).minItems _
  have hb2 : b2.aset = b0.aset ∧ b2.coefs = b0.coefs ∧ b2.intercept = b0.intercept ∧ b2.minItems = lo ∧
      b2.maxItems = min hi b0.nActionable := by
    have r1 := C72_read (b0.setMinItems (some (lo : Int))).1
    have r2 := C72_read (b0.setMaxItems (some (hi : Int))).1
    have r0 := C72_read b0
    have f1 := setMinItems_fields b0 (some (lo : Int))
    have f2 := setMaxItems_fields b0 (some (hi : Int))
    rcases h12 with rfl | rfl
    · have f := setMaxItems_fields (b0.setMinItems (some (lo : Int))).1 (some (hi : Int))
      exact ⟨f.1.trans f1.1, f.2.1.trans f1.2.1, f.2.2.1.trans f1.2.2.1,
        f.2.2.2.1.trans (r0.2.2.1 lo).2, by rw [(r1.2.2.2.1 hi).2, f1.2.2.2.2.1]⟩
    · have f := setMinItems_fields (b0.setMaxItems (some (hi : Int))).1 (some (lo : Int))
      exact ⟨f.1.trans f2.1, f.2.1.trans f2.2.1, f.2.2.1.trans f2.2.2.1,
        (r2.2.2.1 lo).2, f.2.2.2.1.trans (r0.2.2.2.1 hi).2⟩
  obtain ⟨e1, e2, e3, e4, e5⟩ := hb2
  have main : i.feasible = true → ∃ a, i.actions = some a ∧
      IsRecourse b0.aset b0.coefs b0.intercept x a (max lo 1) hi := by
    intro hi'
    obtain ⟨a, h1, h2⟩ := C22_actionable hso ho hr2 hx ha hf hi'
    rw [e1, e2, e3, e4, e5] at h2
    exact ⟨a, h1, h2.permitted, h2.min, h2.max.trans (min_le_left _ _), h2.score⟩
  refine ⟨main, fun hlt => ?_⟩
  cases hi' : i.feasible with
  | false => rfl
  | true =>
    obtain ⟨a, -, h⟩ := main hi'
    have h1 := h.min
    have h2 := h.max
    have := le_max_left lo 1
    omega

/-- Recourse in which every change helps is an admitted choice, for any `min_items`. -/
theorem exchange_min (hso : SetOrderOk ext) (hb : BuilderOK ext b) (hlog : LogOk ext) {feats : List (Feat K)}
    (h : b.buildInfo ext x = .ok feats) (hreg : Regular ext { b with minItems := 0 } x) (hden : Denied b x)
    {a : List K} (ha : IsLimitedRecourse b.aset b.coefs b.intercept x a (max b.minItems 1) b.maxItems)
    (hu : Useful b.aset b.coefs a) :
    ∃ κ, ChoiceOK (b.buildArgs x feats) κ ∧ actVec b.coefs.length feats κ = a ∧
      ∀ cs, ActionCosts ext b.costType b.aset x a cs → ∀ (j : ℕ) (u c : K),
        (cstVec b.coefs.length feats κ)[j]? = some u → cs[j]? = some c → u ≤ c := by
  have hb' : BuilderOK ext { b with minItems := 0 } := ⟨hb.1, hb.2, hb.3⟩
  obtain ⟨κ, h1, h2, h3⟩ := exchange' (b := { b with minItems := 0 }) hso hb' hlog h hreg hden ha
  have hok := buildInfo_ok hso hb h
  have hxl := (buildInfo_spec hso hb h).2.1
  have hal : a.length = b.coefs.length := by rw [ha.permitted.1, hxl, hb.coefs]
  have hact : actVec b.coefs.length feats κ = a := by
    apply List.ext_getElem?
    intro j
    by_cases hj : j < b.coefs.length
    · have hj1 : j < (actVec b.coefs.length feats κ).length := by rw [actVec_length]; exact hj
      have hj2 : j < a.length := by rw [hal]; exact hj
      have hjn : j < b.aset.names.length := by rw [← hb.coefs]; exact hj
      obtain ⟨c1, c2⟩ := h2 j _ _ _ _ (List.getElem?_eq_getElem hjn) (List.getElem?_eq_getElem hj1)
        (List.getElem?_eq_getElem hj2) (List.getElem?_eq_getElem hj)
      rw [List.getElem?_eq_getElem hj1, List.getElem?_eq_getElem hj2]
      congr 1
      by_cases h0 : a[j] = 0
      · by_cases hl : Listed b.aset b.aset.names[j] ∨ 0 < (b.aset.yDesired : K) * (b.coefs[j] * a[j])
        · exact c1 hl
        · rw [h0]; exact c2 hl
      · exact c1 (hu j _ _ _ (List.getElem?_eq_getElem hjn) (List.getElem?_eq_getElem hj)
          (List.getElem?_eq_getElem hj2) h0)
    · rw [List.getElem?_eq_none (by rw [actVec_length]; omega), List.getElem?_eq_none (by omega)]
  refine ⟨κ, ⟨h1.lt, h1.score, ?_, h1.hi, h1.limits⟩, hact, h3⟩
  change max b.minItems 1 ≤ choiceSize feats κ
  rw [← actVec_countP hok h1.lt, hact]
  exact ha.min

/-- **C73.**  With a minimum number of changes set: at a denied point whose grids and percentiles are in order,
an exact solver reports recourse exactly when there is recourse that changes between `min_items` (at least 1)
and `max_items` features, respects the subset limits, and in which every change of a feature not listed in a
limit helps; for `total` and `local` costs the answer is the cheapest such recourse. -/
theorem C73_min_items (hso : SetOrderOk ext) (hlog : LogOk ext) (ho : o.Exact) (hr : b0.Reachable ext)
    (hreg : Regular ext { b0 with minItems := 0 } x) (hden : Denied b0 x)
    (hx : b0.setX ext x = (b1, .ok ())) (ha : b1.Refitted o b) (hf : b.fit o = .ok (b', i)) :
    (i.feasible = true ↔ ∃ a,
      IsLimitedRecourse b0.aset b0.coefs b0.intercept x a (max b0.minItems 1) b0.maxItems ∧
      Useful b0.aset b0.coefs a) ∧
    (i.feasible = true → b0.costType ≠ .max → ∃ c a cs, i.cost = .fin c ∧ i.actions = some a ∧ i.costs = some cs ∧
      IsLimitedRecourse b0.aset b0.coefs b0.intercept x a (max b0.minItems 1) b0.maxItems ∧
      Useful b0.aset b0.coefs a ∧ ActionCosts ext b0.costType b0.aset x a cs ∧ c = cs.sum ∧
      ∀ a' cs', IsLimitedRecourse b0.aset b0.coefs b0.intercept x a' (max b0.minItems 1) b0.maxItems →
        Useful b0.aset b0.coefs a' → ActionCosts ext b0.costType b0.aset x a' cs' → c ≤ cs'.sum) := by
  obtain ⟨feats, h1, h2, h3⟩ := Posed.setX hso hr.ok hx
  have hb' : BuilderOK ext { b0 with minItems := 0 } := ⟨hr.ok.1, hr.ok.2, hr.ok.3⟩
  obtain ⟨-, -, rfl⟩ := fit_ok hf
  have hlim : ∀ κ, ChoiceOK (b0.buildArgs x feats) κ →
      IsLimitedRecourse b0.aset b0.coefs b0.intercept x (actVec b0.coefs.length feats κ)
        (max b0.minItems 1) b0.maxItems := by
    intro κ hk
    exact ⟨choice_isRecourse hso hr.ok h1 hk, (limits_iff hso hr.ok h1 hreg.limits hk.lt).mp hk.limits⟩
  rcases (h3.refitted ha).solved h2 ho.1 with ⟨-, he, hn⟩ | ⟨σ, κ, -, -, hk, -, hrep, hbest⟩
  · rw [he]
    have hne : ¬ (emptyInfo : Info K).feasible = true := Bool.false_ne_true
    refine ⟨⟨fun h => absurd h hne, ?_⟩, fun h => absurd h hne⟩
    rintro ⟨a, har, hu⟩
    obtain ⟨κ, hκ, -⟩ := exchange_min hso hr.ok hlog h1 hreg hden har hu
    exact absurd ⟨κ, hκ, trivial⟩ (hn ho.2)
  have hbest := hbest ho.2
  refine ⟨⟨fun _ => ⟨_, hlim κ hk, choice_useful hso hr.ok h1 hk.lt⟩, fun _ => hrep.feasible⟩, fun _ hct => ?_⟩
  have hct' : (b0.buildArgs x feats).costType ≠ .max := hct
  have hc := hbest.cost
  rw [if_neg hct'] at hc
  refine ⟨_, _, _, hc, hrep.actions, hrep.costs, hlim κ hk, choice_useful hso hr.ok h1 hk.lt,
    regular_actionCosts (b := { b0 with minItems := 0 }) hso hb' hlog h1 hreg hk.lt, (cstVec_sum h2).symm, ?_⟩
  intro a' cs' har' hu' hcs'
  obtain ⟨κ', hκ', -, hle⟩ := exchange_min hso hr.ok hlog h1 hreg hden har' hu'
  have hl := hbest.least κ' hκ' trivial
  have hobj : ∀ κ'', choiceObj (b0.buildArgs x feats).costType (b0.buildArgs x feats).feats κ''
      = choiceSum feats κ'' := by
    intro κ''
    change choiceObj b0.costType feats κ'' = _
    unfold choiceObj
    revert hct
    cases b0.costType with
    | max => intro h; exact absurd rfl h
    | total => intro _; rfl
    | loc => intro _; rfl
  rw [hobj, hobj] at hl
  refine le_trans hl ?_
  rw [← cstVec_sum h2 (κ := κ')]
  apply pointwise_sum_le
  · obtain ⟨-, hxl, -, -⟩ := buildInfo_spec hso hr.ok h1
    rw [cstVec_length, hcs'.1, hxl, hr.ok.coefs]
  · exact hle cs' hcs'

/-- Non-vacuity of `C72_next` and `C73_min_items`: three binary features, one change is enough, but with
`min_items = 2` every exact solver returns an action with two changes. -/
theorem C73_example (be : Backend) : ∃ b0 b1 : Builder ℚ, b0.Reachable exExt ∧ b0.minItems = 2 ∧
    Regular exExt { b0 with minItems := 0 } [0, 0, 0] ∧ Denied b0 [0, 0, 0] ∧
    b0.setX exExt [0, 0, 0] = (b1, .ok ()) ∧
    ∀ o : Oracle ℚ, o.Exact → ∃ b' i a, b1.fit o = .ok (b', i) ∧ i.feasible = true ∧ i.actions = some a ∧
      numChanged a = 2 := by
  have key : ∀ be, ∃ c : Builder ℚ,
      exBuilderE be .total [[0, 0, 0], [1, 1, 1]] ["a", "b", "c"] .ok [1, 1, 1] (-1) = .ok c ∧
      (c.setMinItems (some 2)).1.minItems = 2 ∧
      regularB exExt { (c.setMinItems (some 2)).1 with minItems := 0 } [0, 0, 0] = true ∧
      Denied (c.setMinItems (some 2)).1 [0, 0, 0] ∧
      ((c.setMinItems (some 2)).1.setX exExt [0, 0, 0]).2 = .ok () ∧
      admitted ((c.setMinItems (some 2)).1.buildArgs [0, 0, 0]
        ((c.setMinItems (some 2)).1.setX exExt [0, 0, 0]).1.feats) (fun _ => true) ≠ [] ∧
      ∀ κ ∈ optChoices ((c.setMinItems (some 2)).1.buildArgs [0, 0, 0]
        ((c.setMinItems (some 2)).1.setX exExt [0, 0, 0]).1.feats) (fun _ => true),
        numChanged (actVec (c.setMinItems (some 2)).1.coefs.length
          ((c.setMinItems (some 2)).1.setX exExt [0, 0, 0]).1.feats κ) = 2 := by
    intro be; cases be <;> decide +kernel
  obtain ⟨c, h1, h2, h3, h4, h5, h6, h7⟩ := key be
  have hr : (c.setMinItems (some 2)).1.Reachable exExt :=
    (exBuilderE_reachable h1 fun A A' => prep_ok).minItems _
  generalize (c.setMinItems (some 2)).1 = b0 at *
  obtain ⟨b1, hs⟩ : ∃ b1, b0.setX exExt [0, 0, 0] = (b1, .ok ()) := ⟨_, Prod.ext rfl h5⟩
  have hb' : BuilderOK exExt { b0 with minItems := 0 } := ⟨hr.ok.1, hr.ok.2, hr.ok.3⟩
  refine ⟨b0, b1, hr, h2, regular_of_b hb' exExt_pos h3, h4, hs, fun o ho => ?_⟩
  obtain ⟨b1', feats, g1, -, g2, b', i, g3, g4⟩ := exSolve exExt_order hr h5 ho
  rw [hs] at g1; cases g1
  rw [g2] at h6 h7
  rcases g4 with ⟨h, -⟩ | ⟨κ, hκ, -, hf, hact, -⟩
  · exact absurd h h6
  · exact ⟨b', i, _, g3, hf, hact, h7 κ hκ⟩

/-- Why C73 asks that every change helps: with `min_items = 2`, coefficients 2 and 1 and the point (0, 1),
raising the first feature and lowering the second is permitted recourse with two changes, but every exact
solver reports that there is none. -/
theorem C73_harmful (be : Backend) : ∃ b0 b1 : Builder ℚ, b0.Reachable exExt ∧ b0.minItems = 2 ∧
    b0.setX exExt [0, 1] = (b1, .ok ()) ∧
    IsRecourse b0.aset b0.coefs b0.intercept [0, 1] [1, -1] 2 b0.maxItems ∧
    ∀ o : Oracle ℚ, o.Exact → ∃ b' i, b1.fit o = .ok (b', i) ∧ i.feasible = false := by
  have key : ∀ be, ∃ c : Builder ℚ,
      exBuilderE be .total [[0, 0], [1, 1]] ["a", "b"] .ok [2, 1] (-2) = .ok c ∧
      (c.setMinItems (some 2)).1.minItems = 2 ∧
      (c.setMinItems (some 2)).1.maxItems = 2 ∧ (c.setMinItems (some 2)).1.coefs = [2, 1] ∧
      (c.setMinItems (some 2)).1.intercept = -2 ∧ (c.setMinItems (some 2)).1.aset.yDesired = 1 ∧
      ((c.setMinItems (some 2)).1.aset.elems.map fun e => (e.actionable, e.stepDir)) = [(true, 0), (true, 0)] ∧
      ((c.setMinItems (some 2)).1.aset.elems.map fun e => (decide ((0 : ℚ) ∈ e.grid.vals), decide ((1 : ℚ) ∈ e.grid.vals)))
        = [(true, true), (true, true)] ∧
      ((c.setMinItems (some 2)).1.setX exExt [0, 1]).2 = .ok () ∧
      admitted ((c.setMinItems (some 2)).1.buildArgs [0, 1]
        ((c.setMinItems (some 2)).1.setX exExt [0, 1]).1.feats) (fun _ => true) = [] := by
    intro be; cases be <;> decide +kernel
  obtain ⟨c, h1, h2, h3, k1, k2, k3, k4, k6, h5, h6⟩ := key be
  have hr : (c.setMinItems (some 2)).1.Reachable exExt :=
    (exBuilderE_reachable h1 fun A A' => prep_ok).minItems _
  generalize (c.setMinItems (some 2)).1 = b0 at *
  obtain ⟨b1, hs⟩ : ∃ b1, b0.setX exExt [0, 1] = (b1, .ok ()) := ⟨_, Prod.ext rfl h5⟩
  refine ⟨b0, b1, hr, h2, hs, ⟨⟨rfl, ?_⟩, ?_, ?_, ?_⟩, fun o ho => ?_⟩
  · intro j e xj aj he hx ha
    have e1 := congrArg (fun l => l[j]?) k4
    have e2 := congrArg (fun l => l[j]?) k6
    simp only [List.getElem?_map, he, Option.map_some] at e1 e2
    match j with
    | 0 =>
      simp only [List.getElem?_cons_zero, Option.some.injEq, Prod.mk.injEq, decide_eq_true_eq] at e1 e2 hx ha
      subst hx ha
      right
      exact ⟨e1.1, by simpa using e2.2, by simp [e1.2, DirOk]⟩
    | 1 =>
      simp only [List.getElem?_cons_zero, List.getElem?_cons_succ, Option.some.injEq, Prod.mk.injEq,
        decide_eq_true_eq] at e1 e2 hx ha
      subst hx ha
      right
      exact ⟨e1.1, by simpa using e2.1, by simp [e1.2, DirOk]⟩
    | j + 2 => simp at hx
  · decide +kernel
  · rw [h3]; decide +kernel
  · rw [k1, k2, k3]; unfold ReachesScore; decide +kernel
  · obtain ⟨b1', feats, g1, -, g2, b', i, g3, g4⟩ := exSolve exExt_order hr h5 ho
    rw [hs] at g1; cases g1
    rw [g2] at h6
    rcases g4 with ⟨-, rfl⟩ | ⟨κ, hκ, -⟩
    · exact ⟨b', _, g3, rfl⟩
    · unfold optChoices at hκ
      rw [h6] at hκ
      simp at hκ

/-- C32 also fails after `min_items` was assigned: `set_mip_item_limits` compares the request with the
attribute, finds nothing new and leaves the program alone.  With `min_items = 2` assigned after the point and
then `set_mip_item_limits(2, 3)`, every exact solver still returns a single change. -/
theorem C32_attribute_refuted (be : Backend) :
    (∀ (b : Builder ℚ) (k : ℕ), k ≤ b.maxItems →
      (b.setMinItems (some (k : Int))).1.setItemLimits (some (k : Int)) (some (b.maxItems : Int))
        = ((b.setMinItems (some (k : Int))).1, .ok ())) ∧
    ∃ b0 b1 b2 b3 : Builder ℚ, b0.Reachable exExt ∧ b0.setX exExt [0, 0, 0] = (b1, .ok ()) ∧
      b1.setMinItems (some 2) = (b2, .ok ()) ∧ b2.setItemLimits (some 2) (some 3) = (b3, .ok ()) ∧
      ∀ o : Oracle ℚ, o.Exact → ∃ b' i a, b3.fit o = .ok (b', i) ∧ i.actions = some a ∧ numChanged a = 1 := by
  have gen : ∀ (b : Builder ℚ) (k : ℕ), k ≤ b.maxItems →
      (b.setMinItems (some (k : Int))).1.setItemLimits (some (k : Int)) (some (b.maxItems : Int))
        = ((b.setMinItems (some (k : Int))).1, .ok ()) := by
    intro b k hk
    have e1 := ((C72_read b).2.2.1 k).2
    have e2 := (setMinItems_fields b (some (k : Int))).2.2.2.1
    unfold Builder.setItemLimits
    dsimp only
    rw [if_neg (by omega), e1, if_neg (by simp), e2, if_neg (by simp)]
  refine ⟨gen, ?_⟩
  have key : ∀ be, ∃ b0 : Builder ℚ,
      exBuilderE be .total [[0, 0, 0], [1, 1, 1]] ["a", "b", "c"] .ok [1, 1, 1] (-1) = .ok b0 ∧
      (b0.setX exExt [0, 0, 0]).2 = .ok () ∧ (b0.setX exExt [0, 0, 0]).1.maxItems = 3 ∧
      admitted (b0.buildArgs [0, 0, 0] (b0.setX exExt [0, 0, 0]).1.feats) (fun _ => true) ≠ [] ∧
      ∀ κ ∈ optChoices (b0.buildArgs [0, 0, 0] (b0.setX exExt [0, 0, 0]).1.feats) (fun _ => true),
        numChanged (actVec b0.coefs.length (b0.setX exExt [0, 0, 0]).1.feats κ) = 1 := by
    intro be; cases be <;> decide +kernel
  obtain ⟨b0, h1, h2, h3, h4, h5⟩ := key be
  have hr : b0.Reachable exExt := exBuilderE_reachable h1 fun A A' => prep_ok
  obtain ⟨b1, hs⟩ : ∃ b1, b0.setX exExt [0, 0, 0] = (b1, .ok ()) := ⟨_, Prod.ext rfl h2⟩
  have hg := gen b1 2 (by rw [hs] at h3; rw [h3]; decide)
  rw [hs] at h3
  rw [h3] at hg
  refine ⟨b0, b1, _, _, hr, hs, Prod.ext rfl ((C72_read b1).2.2.1 2).1, hg, fun o ho => ?_⟩
  obtain ⟨b1', feats, g1, -, g2, b', i, g3, g4⟩ := exSolve exExt_order hr h2 ho
  rw [hs] at g1; cases g1
  rw [g2] at h4 h5
  rcases g4 with ⟨h, -⟩ | ⟨κ, hκ, -, hf, hact, -⟩
  · exact absurd h h4
  · obtain ⟨c, hc⟩ := (C72_current b1 (some ((2 : ℕ) : Int)) (b', i)).1 g3
    exact ⟨c, i, _, hc, hact, h5 κ hκ⟩

/-- A rejected call of `set_mip_item_limits` is not without effect: with a negative minimum the program is
changed before the exception.  For an approved point every exact solver then "recommends" to change nothing,
at cost 0, as recourse. -/
theorem C32_rejected_refuted (be : Backend) : ∃ b0 b1 b2 : Builder ℚ, b0.Reachable exExt ∧
    b0.setX exExt [0] = (b1, .ok ()) ∧ b1.setItemLimits (some (-1)) (some 1) = (b2, .error .assertion) ∧
    ∀ o : Oracle ℚ, o.Exact → ∃ b' i, b2.fit o = .ok (b', i) ∧ i.feasible = true ∧ i.cost = .fin 0 ∧
      i.actions = some [0] := by
  let m : List (LinCon ℚ) → Mip ℚ := fun p =>
    { decls := [{ v := .a 0, kind := .cont, lb := 0, ub := some 1 }, { v := .u 0 0, kind := .bin, lb := 0, ub := some 1 },
        { v := .u 0 1, kind := .bin, lb := 0, ub := some 1 }]
      cons := { name := .other, terms := [(.a 0, 1)], sense := .ge, rhs := 0 } :: p ++
        [{ name := .other, terms := [(.u 0 0, 1), (.u 0 1, 1)], sense := .eq, rhs := 1 },
         { name := .maxItems, terms := [(.u 0 0, 1)], sense := .ge, rhs := 0 },
         { name := .minItems, terms := [(.u 0 0, 1)], sense := .le, rhs := 2 }]
      sos := [[.u 0 0, .u 0 1]]
      obj := [(.u 0 0, 0), (.u 0 1, 500000 / 1000001)] }
  let pc : LinCon ℚ := { name := .other, terms := [(.a 0, -1), (.u 0 0, 0), (.u 0 1, 1)], sense := .eq, rhs := 0 }
  let pp : LinCon ℚ := { name := .other, terms := [(.u 0 0, 0), (.u 0 1, 1), (.a 0, -1)], sense := .eq, rhs := 0 }
  have key : ∀ be, ∃ b0 : Builder ℚ, exBuilderE be .total [[0], [1]] ["a"] .ok [1] 0 = .ok b0 ∧
      (b0.setX exExt [0]).2 = .ok () ∧
      ((b0.setX exExt [0]).1.setItemLimits (some (-1)) (some 1)).2 = .error .assertion ∧
      ((b0.setX exExt [0]).1.setItemLimits (some (-1)) (some 1)).1.mip
        = some (m [if be = .cpx then pc else pp]) ∧
      ((b0.setX exExt [0]).1.setItemLimits (some (-1)) (some 1)).1.feats.map (·.idx) = [0] ∧
      ((b0.setX exExt [0]).1.setItemLimits (some (-1)) (some 1)).1.coefs.length = 1 ∧
      ((b0.setX exExt [0]).1.setItemLimits (some (-1)) (some 1)).1.costType = .total := by
    intro be; cases be <;> decide +kernel
  obtain ⟨b0, h1, h2, h3, h4, h5, h6, h7⟩ := key be
  have hr : b0.Reachable exExt := exBuilderE_reachable h1 fun A A' => prep_ok
  obtain ⟨b1, hs⟩ : ∃ b1, b0.setX exExt [0] = (b1, .ok ()) := ⟨_, Prod.ext rfl h2⟩
  rw [hs] at h3 h4 h5 h6 h7
  obtain ⟨b2, hs2⟩ : ∃ b2, b1.setItemLimits (some (-1)) (some 1) = (b2, .error .assertion) := ⟨_, Prod.ext rfl h3⟩
  rw [hs2] at h4 h5 h6 h7
  dsimp only at h4 h5 h6 h7
  refine ⟨b0, b1, b2, hr, hs, hs2, fun o ho => ⟨b2.solve o, (b2.solve o).solutionInfo, by unfold Builder.fit; rw [h4], ?_⟩⟩
  set M := m [if be = .cpx then pc else pp] with hM
  let σ0 : Var → ℚ := fun v => if v = .u 0 0 then 1 else 0
  have hpick : ∀ σ : Var → ℚ, LinCon.Sat (if be = .cpx then pc else pp) σ ↔ σ (.u 0 1) = σ (.a 0) := by
    intro σ
    cases be
    · change evalLin σ pc.terms = 0 ↔ _
      simp only [evalLin, pc, List.map_cons, List.map_nil, List.sum_cons, List.sum_nil]
      constructor <;> intro h <;> linarith
    · change evalLin σ pp.terms = 0 ↔ _
      simp only [evalLin, pp, List.map_cons, List.map_nil, List.sum_cons, List.sum_nil]
      constructor <;> intro h <;> linarith
  have hf0 : M.Feasible σ0 := by
    refine ⟨?_, ?_, ?_⟩
    · intro d hd
      simp only [hM, m, List.mem_cons, List.not_mem_nil, or_false] at hd
      rcases hd with rfl | rfl | rfl <;> simp [VarDecl.Sat, σ0]
    · intro c hc
      simp only [hM, m, List.cons_append, List.nil_append, List.mem_cons, List.not_mem_nil, or_false] at hc
      rcases hc with rfl | rfl | rfl | rfl | rfl
      · simp [LinCon.Sat, evalLin, σ0]
      · rw [hpick]; simp [σ0]
      · simp [LinCon.Sat, evalLin, σ0]
      · simp [LinCon.Sat, evalLin, σ0]
      · simp [LinCon.Sat, evalLin, σ0]
    · intro s hs
      simp only [hM, m, List.mem_singleton] at hs
      subst hs
      intro v hv v' hv' h h'
      simp only [List.mem_cons, List.not_mem_nil, or_false] at hv hv'
      rcases hv with rfl | rfl <;> rcases hv' with rfl | rfl <;> simp_all [σ0]
  have hobj : ∀ τ, M.objVal τ = 500000 / 1000001 * τ (.u 0 1) := by
    intro τ; simp [Mip.objVal, evalLin, hM, m]
  have hnn : ∀ τ, M.Feasible τ → 0 ≤ τ (.u 0 1) := by
    intro τ hτ
    exact (hτ.decls { v := .u 0 1, kind := .bin, lb := 0, ub := some 1 } (by simp [hM, m])).1
  have hopt : M.Optimal σ0 := by
    refine ⟨hf0, fun τ hτ => ?_⟩
    rw [hobj, hobj]
    have := hnn τ hτ
    have h0 : σ0 (.u 0 1) = 0 := by simp [σ0]
    rw [h0]; linarith
  obtain ⟨σ, hσ⟩ := (ho.2 b2.clock M).1 ⟨σ0, hopt⟩
  have hso := ho.1 b2.clock M
  rw [hσ] at hso
  have hsol : (b2.solve o).sol = .optimal σ := by
    unfold Builder.solve; rw [h4]; exact hσ
  obtain ⟨-, -, -, -, -, hmm, -⟩ := solve_fields o b2
  have hrep : (b2.solve o).reported = some σ := by
    unfold Builder.reported
    rw [hsol]
  have hu : σ (.u 0 1) = 0 := by
    have h := hso.2 σ0 hf0
    rw [hobj, hobj] at h
    have h0 : σ0 (.u 0 1) = 0 := by simp [σ0]
    rw [h0] at h
    have := hnn σ hso.1
    linarith
  have ha : σ (.a 0) = 0 := by
    rw [← (hpick σ).mp (hso.1.cons _ (by simp [hM, m])), hu]
  have hsf := SameFixed.solve o b2
  have hfe : ∃ f : Feat ℚ, b2.feats = [f] ∧ f.idx = 0 := by
    cases hl : b2.feats with
    | nil => rw [hl] at h5; cases h5
    | cons f l =>
      cases l with
      | nil => rw [hl] at h5; exact ⟨f, rfl, by simpa using h5⟩
      | cons g l => rw [hl] at h5; simp at h5
  obtain ⟨f, hf, hfi⟩ := hfe
  unfold Builder.solutionInfo
  rw [hrep, hmm, h4]
  dsimp only
  rw [hsf.costType, h7, hsf.feats, hf, hsf.coefs, h6]
  refine ⟨rfl, ?_, ?_⟩
  · rw [if_neg (by decide), hobj, hu, mul_zero]
  · simp [hfi, ha, npPut]

end Recourse
