import Verif.Props.Optimal
import Verif.Props.Limits
import Verif.Props.Replace

/-!
# C31: builders whose action set was aligned to another classifier
-/

set_option linter.unusedSectionVars false

namespace Recourse

variable {K : Type} [Field K] [LinearOrder K] [IsStrictOrderedRing K] [FloorRing K]

variable {ext : Ext K} {b b0 b1 b' : Builder K} {x : List K} {o : Oracle K} {i : Info K} {feats : List (Feat K)}
  {κ : ℕ → ℕ}

/-- A usable feature not listed in a subset limit has a recorded flip direction that agrees with the classifier. -/
theorem FeatSpec.agrees {f : Feat K} {e : Elem K} {xj : K} {t : Table K} {T : List K} (hb : BuilderOK ext b)
    (hal : e.flip ≠ none) (h : FeatSpec ext b x f e xj t T) (hl : ¬ Listed b.aset f.name) :
    AgreesWith b.aset.yDesired f.coef e := by
  obtain ⟨d, hd⟩ := Option.ne_none_iff_exists'.mp hal
  obtain ⟨-, -, -, c4, c5, -, -, -⟩ := checkFeat_iff.mp h.check
  have c4 := c4.resolve_left (fun hh => hl (listed_iff.mp hh))
  obtain ⟨v, hv, -, hk, -, ha, -⟩ := h.offered hb (k := 1) (by omega) (by omega)
  have hdir := hk (by unfold dropOf; exact decide_eq_true (fun hh => hl (listed_iff.mp hh))) d hd
  have hmem : v - xj ∈ f.actions.tail := by
    rw [← ha, List.getD_eq_getElem _ _ (show 1 < f.actions.length by omega)]
    rw [List.mem_iff_getElem]
    exact ⟨0, by rw [List.length_tail]; omega, by rw [List.getElem_tail]⟩
  have hd0 : d ≠ 0 := by
    rintro rfl
    rcases h.usable with hu | hu
    · apply hu
      unfold Elem.compatible
      rw [hd]
      cases e.actionable <;> simp
    · exact hl (listed_iff.mp hu)
  refine ⟨d, hd, ?_⟩
  by_cases hp : 0 < b.aset.yDesired * sgn f.coef
  · rw [if_pos hp] at c4
    have := c4 _ hmem
    have : 0 < d := by
      by_contra hn
      have h1 := hdir.2 (lt_of_le_of_ne (not_lt.mp hn) hd0)
      linarith
    exact mul_pos this hp
  · rw [if_neg hp] at c4
    have h2 := c4 _ hmem
    have hdn : d < 0 := by
      by_contra hn
      have h1 := hdir.1 (lt_of_le_of_ne (not_lt.mp hn) (Ne.symm hd0))
      linarith
    have hne : b.aset.yDesired * sgn f.coef ≠ 0 := by
      apply mul_ne_zero
      · rcases hb.aset.wf.y with h | h <;> rw [h] <;> decide
      · rcases sgn_cases f.coef with ⟨h1, -⟩ | ⟨h1, -⟩ | ⟨-, h1⟩
        · rw [h1]; decide
        · rw [h1]; decide
        · have hc := (checkFeat_iff.mp h.check).1
          rw [h1] at hc
          have h8 : (0 : K) ≤ 1 / 10 ^ 8 := by positivity
          simp [isClose, isCloseTol] at hc
    exact mul_pos_of_neg_of_neg hdn (lt_of_le_of_ne (not_lt.mp hp) hne)

/-- Every admitted choice follows the recorded alignment. -/
theorem choice_follows (hso : SetOrderOk ext) (hb : BuilderOK ext b) (h : b.buildInfo ext x = .ok feats)
    (hal : ∀ e ∈ b.aset.elems, e.flip ≠ none) (κ : ℕ → ℕ) :
    FollowsAlignment b (actVec b.coefs.length feats κ) := by
  intro j n e w v hn he hw hv hv0
  have hok := buildInfo_ok hso hb h
  obtain ⟨-, -, hspec, -⟩ := buildInfo_spec hso hb h
  have hj : j < b.coefs.length := (List.getElem?_eq_some_iff.mp hw).1
  by_cases hfe : ∃ f ∈ feats, f.idx = j
  · obtain ⟨f, hfm, rfl⟩ := hfe
    obtain ⟨e', xj, t, T, hs⟩ := hspec f hfm
    have q1 := hs.elem; rw [he] at q1; obtain rfl := Option.some.inj q1
    have q2 := hs.coef; rw [hw] at q2; obtain rfl := Option.some.inj q2
    have q3 := hs.name; rw [hn] at q3; obtain rfl := Option.some.inj q3
    by_cases hl : Listed b.aset f.name
    · exact Or.inl hl
    · exact Or.inr (hs.agrees hb (hal e (List.mem_of_getElem? he)) hl)
  · push Not at hfe
    have q3 := put_other (n := b.coefs.length) (fun f : Feat K => f.act κ) hj hfe
    change (actVec b.coefs.length feats κ)[j]? = _ at q3
    rw [hv] at q3
    exact absurd (Option.some.inj q3) hv0

/-- While a point is accepted, all features are aligned to something. -/
theorem accepted_aligned (hb : b0.Reachable ext) (hx : b0.setX ext x = (b1, .ok ())) :
    ∀ e ∈ b0.aset.elems, e.flip ≠ none := by
  intro e he hn
  obtain ⟨j, hj⟩ := List.mem_iff_getElem?.mp he
  have hwf := hb.ok.aset.wf
  have hjl : j < b0.aset.names.length := by rw [← hwf.length]; exact (List.getElem?_eq_some_iff.mp hj).1
  have h1 : b0.aset.elem? b0.aset.names[j] = some e := by
    unfold ActionSet.elem?
    rw [if_pos (List.getElem_mem hjl), hwf.distinct.idxOf_getElem j hjl]
    exact hj
  obtain ⟨er, h2⟩ := C85_old_builder hb h1 (by unfold Elem.aligned; rw [hn]; rfl) x
  rw [hx] at h2
  cases h2

/-- The exchange argument for an action set aligned to anything. -/
theorem exchange_follows (hso : SetOrderOk ext) (hb : BuilderOK ext b) (hlog : LogOk ext)
    (h : b.buildInfo ext x = .ok feats) (hreg : Situated ext b x) (hden : Denied b x) {a : List K} {lo : ℕ}
    (ha : IsLimitedRecourse b.aset b.coefs b.intercept x a lo b.maxItems) (hfa : FollowsAlignment b a) :
    ∃ κ, ChoiceOK (b.buildArgs x feats) κ ∧
      ∀ cs, ActionCosts ext b.costType b.aset x a cs → ∀ (j : ℕ) (u c : K),
        (cstVec b.coefs.length feats κ)[j]? = some u → cs[j]? = some c → u ≤ c := by
  obtain ⟨κ, h1, -, h3⟩ := exchange_any hso hb hlog h hreg hden ha (fun j e w v he hw hv hpos => by
    have hjn : j < b.aset.names.length := by rw [← hb.coefs]; exact (List.getElem?_eq_some_iff.mp hw).1
    rcases hfa j _ e w v (List.getElem?_eq_getElem hjn) he hw hv (by rintro rfl; simp at hpos) with h | h
    · exact Or.inl ⟨_, List.getElem?_eq_getElem hjn, h⟩
    · exact Or.inr h)
  exact ⟨κ, h1, h3⟩

/-- **C31**, what a builder for another classifier finds: whatever the action set was aligned to, a point that is
accepted is reported infeasible exactly when there is no permitted recourse that changes only features whose recorded flip
direction agrees with the builder's own classifier (or that are listed in a subset limit). -/
theorem C31_no_recourse (hso : SetOrderOk ext) (hlog : LogOk ext) (ho : o.Exact) (hr : b0.Reachable ext)
    (hreg : Situated ext b0 x) (hden : Denied b0 x) (hx : b0.setX ext x = (b1, .ok ()))
    (ha : b1.Refitted o b) (hf : b.fit o = .ok (b', i)) :
    i.feasible = false ↔ ¬ ∃ a, IsLimitedRecourse b0.aset b0.coefs b0.intercept x a 1 b0.maxItems ∧
      FollowsAlignment b0 a := by
  obtain ⟨feats, h1, h2, h3⟩ := Posed.setX hso hr.ok hx
  obtain ⟨-, -, rfl⟩ := fit_ok hf
  constructor
  · rintro hi ⟨a, har, hfa⟩
    obtain ⟨κ, hκ, -⟩ := exchange_follows hso hr.ok hlog h1 hreg hden har hfa
    rcases (h3.refitted ha).solved h2 ho.1 with ⟨-, -, hn⟩ | ⟨σ, κ', -, -, -, -, hrep, -⟩
    · exact hn ho.2 ⟨κ, hκ, trivial⟩
    · rw [hrep.feasible] at hi; cases hi
  · intro hno
    rcases (h3.refitted ha).solved h2 ho.1 with ⟨-, he, -⟩ | ⟨σ, κ, -, -, hk, -, -, -⟩
    · rw [he]; rfl
    · exact absurd ⟨_, choice_limited' hso hr.ok h1 hreg hk, choice_follows hso hr.ok h1 (accepted_aligned hr hx) κ⟩ hno

/-- **C31**, costs: with total or local costs, a feasible answer changes only features whose recorded flip direction agrees
with the builder's classifier (or that are listed in a subset limit), and is the cheapest permitted recourse of this kind. -/
theorem C31_sum_minimal (hso : SetOrderOk ext) (hlog : LogOk ext) (ho : o.Exact) (hr : b0.Reachable ext)
    (hreg : Situated ext b0 x) (hden : Denied b0 x) (hct : b0.costType ≠ .max)
    (hx : b0.setX ext x = (b1, .ok ())) (ha : b1.Refitted o b) (hf : b.fit o = .ok (b', i))
    (hi : i.feasible = true) : ∃ c a cs, i.cost = .fin c ∧ i.actions = some a ∧ i.costs = some cs ∧
    IsLimitedRecourse b0.aset b0.coefs b0.intercept x a 1 b0.maxItems ∧ FollowsAlignment b0 a ∧
    ActionCosts ext b0.costType b0.aset x a cs ∧ c = cs.sum ∧
    ∀ a' cs', IsLimitedRecourse b0.aset b0.coefs b0.intercept x a' 1 b0.maxItems → FollowsAlignment b0 a' →
      ActionCosts ext b0.costType b0.aset x a' cs' → c ≤ cs'.sum := by
  obtain ⟨feats, h1, h2, h3⟩ := Posed.setX hso hr.ok hx
  obtain ⟨-, -, rfl⟩ := fit_ok hf
  rcases (h3.refitted ha).solved h2 ho.1 with ⟨-, he, -⟩ | ⟨σ, κ, -, -, hk, -, hrep, hbest⟩
  · rw [he] at hi; cases hi
  have hbest := hbest ho.2
  have hct' : (b0.buildArgs x feats).costType ≠ .max := hct
  have hc := hbest.cost
  rw [if_neg hct'] at hc
  refine ⟨_, _, _, hc, hrep.actions, hrep.costs, choice_limited' hso hr.ok h1 hreg hk,
    choice_follows hso hr.ok h1 (accepted_aligned hr hx) κ, situated_actionCosts hso hr.ok hlog h1 hreg hk.lt,
    (cstVec_sum h2).symm, ?_⟩
  intro a' cs' har' hfa' hcs'
  obtain ⟨κ', hκ', hle⟩ := exchange_follows hso hr.ok hlog h1 hreg hden har' hfa'
  have hl := hbest.least κ' hκ' trivial
  have hobj : ∀ κ'', choiceObj (b0.buildArgs x feats).costType (b0.buildArgs x feats).feats κ''
      = choiceSum feats κ'' := by
    intro κ''
    change choiceObj b0.costType feats κ'' = _
    unfold choiceObj
    revert hct
    cases b0.costType with
    | max => intro h; exact absurd rfl h
    | total => intro _; rfl
    | loc => intro _; rfl
  rw [hobj, hobj] at hl
  refine le_trans hl ?_
  rw [← cstVec_sum h2 (κ := κ')]
  apply pointwise_sum_le
  · obtain ⟨-, hxl, -, -⟩ := buildInfo_spec hso hr.ok h1
    rw [cstVec_length, hcs'.1, hxl, hr.ok.coefs]
  · exact hle cs' hcs'

/-- **C31**, which points are rejected: a feature that is not listed in a subset limit, whose recorded flip direction does not agree
with the builder's classifier, and that has a permitted value in this direction, makes the assignment of the point raise. -/
theorem C31_raises (hso : SetOrderOk ext) (hr : b0.Reachable ext) {j : ℕ} {n : String} {e : Elem K} {xj w v : K} {d : Int}
    (hn : b0.aset.names[j]? = some n) (he : b0.aset.elems[j]? = some e) (hxj : x[j]? = some xj)
    (hw : b0.coefs[j]? = some w) (hl : ¬ Listed b0.aset n) (hfit : FitsGrid e xj) (hd : e.flip = some d) (hd0 : d ≠ 0)
    (hdis : ¬ AgreesWith b0.aset.yDesired w e) (hv : Permitted e xj v) (hne : v ≠ xj) (hdir : DirOk d xj v) :
    ∃ er, (b0.setX ext x).2 = .error er := by
  rcases hh : b0.setX ext x with ⟨b1, er | u⟩
  · exact ⟨er, rfl⟩
  exfalso
  obtain ⟨feats, m, -, hbi, -, -⟩ := setX_ok hh
  have hb := hr.ok
  obtain ⟨-, -, hspec, hcov⟩ := buildInfo_spec hso hb hbi
  have hnl : n ∉ b0.aset.cons.flatNames := fun h => hl (listed_iff.mp h)
  have hkeep : KeepFlip e (decide (n ∉ b0.aset.cons.flatNames)) xj v := by
    intro _ d' hd'
    rw [hd] at hd'
    obtain rfl := Option.some.inj hd'
    exact hdir
  obtain ⟨f, hfm, rfl, rfl⟩ := hcov j n e xj hn he hxj (by
    refine Or.inl fun hc => ?_
    rcases hv with hv | ⟨h1, -, s1, s2⟩
    · exact hne hv
    unfold Elem.compatible at hc
    rw [hd] at hc
    simp only [h1, Bool.not_true, Bool.false_eq_true, if_false, Option.some.injEq, Bool.not_eq_false',
      Bool.or_eq_true, decide_eq_true_eq] at hc
    rcases hc with hc | hc
    · exact hd0 hc
    · obtain ⟨t1, t2⟩ := hdir
      apply hne
      rcases Int.mul_eq_neg_one_iff_eq_one_or_neg_one.mp hc with ⟨rfl, hs⟩ | ⟨rfl, hs⟩
      · exact le_antisymm (s2 (by rw [hs]; decide)) (t1 (by decide))
      · exact le_antisymm (t2 (by decide)) (s1 (by rw [hs]; decide)))
    (two_le_of_mem ((mem_feasX fun _ => hfit).mpr ⟨hv, hkeep⟩) ((mem_feasX fun _ => hfit).mpr
      ⟨Or.inl rfl, fun _ _ _ => ⟨fun _ => le_refl _, fun _ => le_refl _⟩⟩) hne)
  obtain ⟨e', xj', t, T, hs⟩ := hspec f hfm
  have q1 := hs.elem; rw [he] at q1; obtain rfl := Option.some.inj q1
  have q2 := hs.coef; rw [hw] at q2; obtain rfl := Option.some.inj q2
  exact hdis (hs.agrees hb (by rw [hd]; simp) hl)

/-- Non-vacuity of `C31_no_recourse` and `C31_sum_minimal`: aligned to `[-1, 1]`, used for `[1, 1]`, at the point `[0, 0]`.  The point is
accepted although the first feature disagrees (it has no value below 0), a feasible answer exists, and every exact solver gives it. -/
theorem C31_situated_example (be : Backend) : ∃ b0 b1 : Builder ℚ, b0.Reachable exExt ∧
    exBuilderE be .total [[0, 0], [1, 1]] ["a", "b"] (fun A => A.setAlignment [-1, 1]) [1, 1] (-1) = .ok b0 ∧
    Situated exExt b0 [0, 0] ∧ Denied b0 [0, 0] ∧ b0.costType ≠ .max ∧ b0.setX exExt [0, 0] = (b1, .ok ()) ∧
    (∃ e, b0.aset.elems[0]? = some e ∧ e.flip = some (-1)) ∧
    ∀ o : Oracle ℚ, o.Exact → ∃ b' i, b1.fit o = .ok (b', i) ∧ i.feasible = true ∧ i.actions = some [0, 1] := by
  have key : ∀ be, ∃ b0 : Builder ℚ,
      exBuilderE be .total [[0, 0], [1, 1]] ["a", "b"] (fun A => A.setAlignment [-1, 1]) [1, 1] (-1) = .ok b0 ∧
      situatedB exExt b0 [0, 0] = true ∧ Denied b0 [0, 0] ∧ b0.costType = .total ∧ (b0.setX exExt [0, 0]).2 = .ok () ∧
      b0.aset.elems.map (fun e => e.flip) = [some (-1), some 1] ∧
      admitted (b0.buildArgs [0, 0] (b0.setX exExt [0, 0]).1.feats) (fun _ => true) ≠ [] ∧
      ∀ κ ∈ optChoices (b0.buildArgs [0, 0] (b0.setX exExt [0, 0]).1.feats) (fun _ => true),
        actVec b0.coefs.length (b0.setX exExt [0, 0]).1.feats κ = [0, 1] := by
    intro be; cases be <;> decide +kernel
  obtain ⟨b0, h1, h2, h3, h4, h5, h6, h7, h8⟩ := key be
  have hr : b0.Reachable exExt := exBuilderE_reachable h1 fun A A' hA h => .align hA h
  obtain ⟨b1, hs⟩ : ∃ b1, b0.setX exExt [0, 0] = (b1, .ok ()) := ⟨_, Prod.ext rfl h5⟩
  refine ⟨b0, b1, hr, h1, situated_of_b hr.ok exExt_pos h2, h3, by rw [h4]; decide, hs, ?_, fun o ho => ?_⟩
  · have := congrArg (·[0]?) h6
    simp only [List.getElem?_map, List.getElem?_cons_zero] at this
    obtain ⟨e, he, hfl⟩ := Option.map_eq_some_iff.mp this
    exact ⟨e, he, hfl⟩
  · obtain ⟨b1', feats, g1, -, g2, b', i, g3, g4⟩ := exSolve exExt_order hr h5 ho
    rw [hs] at g1; cases g1
    rw [g2] at h7 h8
    rcases g4 with ⟨h, -⟩ | ⟨κ, hκ, -, hf, ha, -⟩
    · exact absurd h h7
    · exact ⟨b', i, g3, hf, by rw [ha, h8 κ hκ]⟩

/-- Non-vacuity of `C31_raises`: the same action set and classifier at the point `[1, 0]`. -/
theorem C31_raises_example (be : Backend) : ∃ (b0 : Builder ℚ) (e : Elem ℚ), b0.Reachable exExt ∧
    exBuilderE be .total [[0, 0], [1, 1]] ["a", "b"] (fun A => A.setAlignment [-1, 1]) [1, 1] (-2) = .ok b0 ∧
    b0.aset.names[0]? = some "a" ∧ b0.aset.elems[0]? = some e ∧ b0.coefs[0]? = some 1 ∧ ¬ Listed b0.aset "a" ∧
    FitsGrid e 1 ∧ e.flip = some (-1) ∧ ¬ AgreesWith b0.aset.yDesired (1 : ℚ) e ∧ Permitted e 1 0 ∧ DirOk (-1) (1 : ℚ) 0 := by
  have key : ∀ be, ∃ b0 : Builder ℚ,
      exBuilderE be .total [[0, 0], [1, 1]] ["a", "b"] (fun A => A.setAlignment [-1, 1]) [1, 1] (-2) = .ok b0 ∧
      b0.aset.names[0]? = some "a" ∧ b0.coefs[0]? = some 1 ∧ b0.aset.cons.items = [] ∧ b0.aset.yDesired = 1 ∧
      b0.aset.elems.map (fun e => (e.flip, e.actionable, e.stepDir, e.grid.vals)) =
        [(some (-1), true, 0, [0, 1]), (some 1, true, 0, [0, 1])] := by
    intro be; cases be <;> decide +kernel
  obtain ⟨b0, h1, h2, h3, h4, h5, h6⟩ := key be
  have hr : b0.Reachable exExt := exBuilderE_reachable h1 fun A A' hA h => .align hA h
  have := congrArg (·[0]?) h6
  simp only [List.getElem?_map, List.getElem?_cons_zero] at this
  obtain ⟨e, he, hfl⟩ := Option.map_eq_some_iff.mp this
  simp only [Prod.mk.injEq] at hfl
  obtain ⟨f1, f2, f3, f4⟩ := hfl
  refine ⟨b0, e, hr, h1, h2, he, h3, ?_, fun _ => ⟨1, by norm_num⟩, f1, ?_, Or.inr ⟨f2, by rw [f4]; simp, ?_⟩, ?_⟩
  · rintro ⟨k, hk, -⟩
    rw [h4] at hk; cases hk
  · rintro ⟨d, hd, hp⟩
    rw [f1] at hd
    obtain rfl := Option.some.inj hd
    rw [h5] at hp
    revert hp; decide +kernel
  · rw [f3]; exact ⟨fun h => absurd h (by decide), fun h => absurd h (by decide)⟩
  · exact ⟨fun h => absurd h (by decide), fun _ => by norm_num⟩

end Recourse
