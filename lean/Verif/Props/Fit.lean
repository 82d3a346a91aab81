import Verif.Lemmas.Exec

/-!
# Properties of `fit` (C22, C23, C24, C28, C29, C30)
-/

set_option linter.unusedSectionVars false

namespace Recourse

variable {K : Type} [Field K] [LinearOrder K] [IsStrictOrderedRing K] [FloorRing K]

variable {ext : Ext K} {o : Oracle K} {b0 b1 b b' : Builder K} {x : List K} {i : Info K}

/-! ## C22 -/

/-- **C22.**  After `x` was assigned successfully, and whatever fits, enumerations and changes of the
action set followed, a feasible answer of `fit()` is actionable recourse for the action set, classifier
and item limits at the time of the assignment: it changes at least one and at most `max_items` features,
every feature keeps its value or (if actionable) gets a grid value allowed by its step direction, and the
new score is on the desired closed side of 0.  For every solver whose claims are true, also when it is
stopped by limits, both back ends and all cost types; subset limits may be present. -/
theorem C22_actionable (hso : SetOrderOk ext) (ho : o.Sound) (hr : b0.Reachable ext)
    (hx : b0.setX ext x = (b1, .ok ())) (ha : b1.After o b) (hf : b.fit o = .ok (b', i))
    (hi : i.feasible = true) :
    ∃ a, i.actions = some a ∧
      IsRecourse b0.aset b0.coefs b0.intercept x a (max b0.minItems 1) b0.maxItems := by
  obtain ⟨feats, h1, h2, h3⟩ := Posed.setX hso hr.ok hx
  obtain ⟨Q, -, hq⟩ := h3.after h2 ho ha
  obtain ⟨-, -, rfl⟩ := fit_ok hf
  rcases hq.solved h2 ho with ⟨-, he, -⟩ | ⟨σ, κ, -, -, hk, -, hrep, -⟩
  · rw [he] at hi; cases hi
  · exact ⟨_, hrep.actions, choice_isRecourse hso hr.ok h1 hk⟩

/-- C22 for the items of `populate`. -/
theorem C22_items_actionable (hso : SetOrderOk ext) (ho : o.Sound) (hr : b0.Reachable ext)
    (hx : b0.setX ext x = (b1, .ok ())) (ha : b1.After o b) {et : EnumType} {fuel : ℕ} {total : Option ℕ}
    {items : List (Info K)} (hp : b.populate o et fuel total = .ok (some (b', items))) :
    ∀ i ∈ items, i.feasible = true ∧ ∃ a, i.actions = some a ∧
      IsRecourse b0.aset b0.coefs b0.intercept x a (max b0.minItems 1) b0.maxItems := by
  obtain ⟨feats, h1, h2, h3⟩ := Posed.setX hso hr.ok hx
  obtain ⟨Q, -, hq⟩ := h3.after h2 ho ha
  obtain ⟨-, -, hl⟩ := populate_ok hp
  obtain ⟨t, rfl, ht, -⟩ := hq.popLoop h2 ho hl
  have key : ∀ (t : List ((ℕ → ℕ) × Info K)) (P : (ℕ → ℕ) → Prop),
      Trace b0.coefs.length b0.backend et (b0.buildArgs x feats) o.Complete P t →
      ∀ q ∈ t, ChoiceOK (b0.buildArgs x feats) q.1 ∧ Reports b0.coefs.length (b0.buildArgs x feats) q.1 q.2 := by
    intro t
    induction t with
    | nil => intro P _ q hq; simp at hq
    | cons a t ih =>
      rintro P ⟨h1, -, h3, -, h5⟩ q hq
      rcases List.mem_cons.mp hq with rfl | hq
      · exact ⟨h1, h3⟩
      · exact ih _ h5 q hq
  intro i hi
  simp only [List.nil_append, List.mem_map] at hi
  obtain ⟨q, hq', rfl⟩ := hi
  obtain ⟨hk, hrep⟩ := key t _ ht q hq'
  exact ⟨hrep.feasible, _, hrep.actions, choice_isRecourse hso hr.ok h1 hk⟩

/-- Non-vacuity of C22: two binary features, both back ends; every exact solver reports a feasible
answer that changes one of them from 0 to 1. -/
theorem C22_example (be : Backend) : ∃ b1 : Builder ℚ,
    exBuild be .total [[0, 0], [1, 1]] ["a", "b"] .ok [1, 2] (-1) [0, 0] = .ok b1 ∧
    ∀ o : Oracle ℚ, o.Exact → ∃ b' i, b1.fit o = .ok (b', i) ∧ i.feasible = true ∧
      (i.actions = some [1, 0] ∨ i.actions = some [0, 1]) := by
  have key : ∀ be, ∃ b1 : Builder ℚ,
      exBuild be .total [[0, 0], [1, 1]] ["a", "b"] .ok [1, 2] (-1) [0, 0] = .ok b1 ∧
      admitted (b1.buildArgs [0, 0] b1.feats) (fun _ => true) ≠ [] ∧
      ∀ κ ∈ optChoices (b1.buildArgs [0, 0] b1.feats) (fun _ => true),
        actVec b1.coefs.length b1.feats κ = [1, 0] ∨ actVec b1.coefs.length b1.feats κ = [0, 1] := by
    intro be; cases be <;> decide +kernel
  obtain ⟨b1, h1, h2, h3⟩ := key be
  refine ⟨b1, h1, fun o ho => ?_⟩
  obtain ⟨b', i, h4, h5⟩ := exFit h1 (fun A A' => prep_ok) ho
  refine ⟨b', i, h4, ?_⟩
  rcases h5 with ⟨h, -⟩ | ⟨κ, hκ, hf, ha, -⟩
  · exact absurd h h2
  · exact ⟨hf, by rw [ha]; rcases h3 κ hκ with h | h <;> rw [h] <;> simp⟩

/-! ## C23 -/

/-- **C23** (partial).  A feasible answer never leads to the undesired prediction, and it leads to the
desired one whenever the new score is not exactly 0.  Missing from the full property ("the prediction at
`x + actions` is the desired one"): scores that land exactly on 0, where the prediction is 0
(`C23_flip_refuted`). -/
theorem C23_flip_partial (hso : SetOrderOk ext) (ho : o.Sound) (hr : b0.Reachable ext)
    (hx : b0.setX ext x = (b1, .ok ())) (ha : b1.After o b) (hf : b.fit o = .ok (b', i))
    (hi : i.feasible = true) :
    ∃ a, i.actions = some a ∧ b0.prediction (vadd x a) ≠ -b0.aset.yDesired ∧
      (b0.prediction (vadd x a) = b0.aset.yDesired ↔ b0.score (vadd x a) ≠ 0) := by
  obtain ⟨a, h1, h2⟩ := C22_actionable hso ho hr hx ha hf hi
  refine ⟨a, h1, ?_⟩
  have hs := h2.score
  unfold ReachesScore at hs
  unfold Builder.prediction
  change (if 0 < b0.aset.yDesired then 0 ≤ b0.score (vadd x a) else b0.score (vadd x a) ≤ 0) at hs
  rcases hr.ok.aset.wf.y with hy | hy
  · rw [hy] at hs ⊢
    simp only [Int.zero_lt_one, if_true] at hs
    unfold sgn
    rcases hs.lt_or_eq with h | h
    · simp [h, ne_of_gt h]
    · simp [← h]
  · rw [hy] at hs ⊢
    rw [if_neg (by decide)] at hs
    unfold sgn
    rcases hs.lt_or_eq with h | h
    · simp [h, not_lt.mpr hs, ne_of_lt h]
    · simp [h]

/-- The full C23 is false: one binary feature, `w = 1`, `t = -1`, `x = 0`.  With either back end every
exact solver answers "change the feature to 1", the score becomes 0 and the prediction 0. -/
theorem C23_flip_refuted (be : Backend) : ∃ b1 : Builder ℚ,
    exBuild be .max [[0], [1]] ["a"] .ok [1] (-1) [0] = .ok b1 ∧ b1.prediction [0] = -1 ∧
    ∀ o : Oracle ℚ, o.Exact → ∃ b' i, b1.fit o = .ok (b', i) ∧ i.feasible = true ∧
      i.actions = some [1] ∧ b1.prediction (vadd [0] [1]) = 0 := by
  have key : ∀ be, ∃ b1 : Builder ℚ,
      exBuild be .max [[0], [1]] ["a"] .ok [1] (-1) [0] = .ok b1 ∧ b1.prediction [0] = -1 ∧
      b1.prediction (vadd [0] [1]) = 0 ∧
      admitted (b1.buildArgs [0] b1.feats) (fun _ => true) ≠ [] ∧
      ∀ κ ∈ optChoices (b1.buildArgs [0] b1.feats) (fun _ => true),
        actVec b1.coefs.length b1.feats κ = [1] := by
    intro be; cases be <;> decide +kernel
  obtain ⟨b1, h1, h2, h2', h3, h4⟩ := key be
  refine ⟨b1, h1, h2, fun o ho => ?_⟩
  obtain ⟨b', i, h5, h6⟩ := exFit h1 (fun A A' => prep_ok) ho
  refine ⟨b', i, h5, ?_⟩
  rcases h6 with ⟨h, -⟩ | ⟨κ, hκ, hf, ha, -⟩
  · exact absurd h h3
  · exact ⟨hf, by rw [ha, h4 κ hκ], h2'⟩

/-! ## C24 -/

/-- The tabulated cost of an offered action. -/
def Feat.costOf (f : Feat K) (a : K) : K := f.costs.getD (f.actions.idxOf a) 0

/-- An assignment `α` of actions to columns is admitted by the program at a point of score `s`: it picks
an offered action for every usable feature, changes between `lo` and `hi` of them and reaches the desired
side. -/
structure AdmittedActions (feats : List (Feat K)) (y : Int) (s : K) (lo hi : ℕ) (α : ℕ → K) : Prop where
  offered : ∀ f ∈ feats, α f.idx ∈ f.actions
  min : lo ≤ feats.countP fun f => decide (α f.idx ≠ 0)
  max : (feats.countP fun f => decide (α f.idx ≠ 0)) ≤ hi
  score : if 0 < y then 0 ≤ s + (feats.map fun f => f.coef * α f.idx).sum
    else s + (feats.map fun f => f.coef * α f.idx).sum ≤ 0

/-- Objective value of an assignment: sum of costs, or maximum plus the small multiple of the sum. -/
def assignmentObj (ct : CostType) (feats : List (Feat K)) (α : ℕ → K) : K :=
  if ct = .max then (feats.map fun f => f.costOf (α f.idx)).foldl max 0
    + epsilon feats * (feats.map fun f => f.costOf (α f.idx)).sum
  else (feats.map fun f => f.costOf (α f.idx)).sum

theorem act_costOf {n : ℕ} {feats : List (Feat K)} (hok : FeatsOK n feats) {κ : ℕ → ℕ} {f : Feat K}
    (hf : f ∈ feats) (hκ : κ f.idx < f.actions.length) : f.costOf (f.act κ) = f.cst κ := by
  unfold Feat.costOf Feat.cst Feat.act
  rw [List.getD_eq_getElem _ _ hκ, (hok.nodupA f hf).idxOf_getElem]

/-- **C24.**  After a successful assignment of `x` (no subset limits): every admitted assignment of
offered actions extends to a feasible point of the integer program whose objective value is that of the
assignment; and conversely the `a` variables of every feasible point are an admitted assignment, its
indicator variables are determined by them, and its objective is at least that of the assignment (equal
for the total and local cost). -/
theorem C24_program (hso : SetOrderOk ext) (hr : b0.Reachable ext) (hx : b0.setX ext x = (b1, .ok ()))
    (hl : b0.aset.cons.items = []) : ∃ m, b1.mip = some m ∧
    (∀ α, AdmittedActions b1.feats b0.aset.yDesired (b0.score x) (max b0.minItems 1) b0.maxItems α →
      ∃ σ, m.Feasible σ ∧ (∀ f ∈ b1.feats, σ (.a f.idx) = α f.idx) ∧
        m.objVal σ = assignmentObj b0.costType b1.feats α) ∧
    (∀ σ, m.Feasible σ →
      AdmittedActions b1.feats b0.aset.yDesired (b0.score x) (max b0.minItems 1) b0.maxItems
        (fun j => σ (.a j)) ∧
      (∀ f ∈ b1.feats, ∀ k a, f.actions[k]? = some a →
        σ (.u f.idx k) = if a = σ (.a f.idx) then 1 else 0) ∧
      assignmentObj b0.costType b1.feats (fun j => σ (.a j)) ≤ m.objVal σ ∧
      (b0.costType ≠ .max → assignmentObj b0.costType b1.feats (fun j => σ (.a j)) = m.objVal σ)) := by
  obtain ⟨feats, hbi, hok, hp⟩ := Posed.setX hso hr.ok hx
  obtain ⟨m, hm, hc, -⟩ := hp.mip
  have hfe : b1.feats = feats := hp.feats
  refine ⟨m, hm, ?_, ?_⟩
  · intro α hα
    rw [hfe] at hα ⊢
    -- the positions of the chosen actions
    let κ : ℕ → ℕ := fun j => ((feats.find? fun f => decide (f.idx = j)).map
      fun f => f.actions.idxOf (α j)).getD 0
    have hκv : ∀ f ∈ feats, κ f.idx = f.actions.idxOf (α f.idx) := by
      intro f hf
      simp only [κ, find_idx hok.nodup hf, Option.map_some, Option.getD_some]
    have hκ : Choice feats κ := by
      intro f hf
      rw [hκv f hf]
      exact List.idxOf_lt_length_of_mem (hα.offered f hf)
    have hact : ∀ f ∈ feats, f.act κ = α f.idx := by
      intro f hf
      unfold Feat.act
      rw [hκv f hf, List.getD_eq_getElem _ _ (List.idxOf_lt_length_of_mem (hα.offered f hf)),
        List.getElem_idxOf]
    have hsz : choiceSize feats κ = feats.countP fun f => decide (α f.idx ≠ 0) := by
      unfold choiceSize
      apply List.countP_congr
      intro f hf
      simp only [decide_eq_true_eq, ne_eq, ← hact f hf, hok.act_zero hf hκ]
    have hok' : ChoiceOK (b0.buildArgs x feats) κ := by
      refine ⟨hκ, ?_, ?_, ?_, ?_⟩
      · have : choiceGain feats κ = (feats.map fun f => f.coef * α f.idx).sum := by
          unfold choiceGain
          rw [List.map_congr_left fun f hf => by rw [hact f hf]]
        have hs := hα.score
        rw [← this] at hs
        exact hs
      · change _ ≤ choiceSize feats κ
        rw [hsz]; exact hα.min
      · change choiceSize feats κ ≤ _
        rw [hsz]; exact hα.max
      · intro c hcm
        rw [show (b0.buildArgs x feats).limits = b0.aset.cons.items from rfl, hl] at hcm
        simp at hcm
    obtain ⟨h1, h2⟩ := hc.feasible_encode hok hok' trivial
    refine ⟨_, h1, ?_, ?_⟩
    · intro f hf
      exact ((encode_encodes hok hκ).1.a f hf).trans (hact f hf)
    · rw [h2]
      have hcst : (feats.map fun f => f.cst κ) = feats.map fun f => f.costOf (α f.idx) :=
        List.map_congr_left fun f hf => by rw [← hact f hf, act_costOf hok hf (hκ f hf)]
      unfold assignmentObj
      rw [← hcst]
      change choiceObj b0.costType feats κ = _
      unfold choiceObj choiceMax choiceSum
      cases b0.costType <;> simp
  · intro σ hσ
    rw [hfe]
    obtain ⟨κ, he, hk, -, hcv⟩ := (hc.feas σ).mp hσ
    have hact : ∀ f ∈ feats, σ (.a f.idx) = f.act κ := he.a
    have hcst : (feats.map fun f => f.costOf (σ (.a f.idx))) = feats.map fun f => f.cst κ :=
      List.map_congr_left fun f hf => by rw [hact f hf, act_costOf hok hf (hk.lt f hf)]
    have hobj : assignmentObj b0.costType feats (fun j => σ (.a j)) = choiceObj b0.costType feats κ := by
      unfold assignmentObj
      dsimp only
      rw [hcst]
      unfold choiceObj choiceMax choiceSum
      cases b0.costType <;> simp
    have hsz : (feats.countP fun f => decide (σ (.a f.idx) ≠ 0)) = choiceSize feats κ := by
      unfold choiceSize
      apply List.countP_congr
      intro f hf
      simp only [decide_eq_true_eq, ne_eq, hact f hf, hok.act_zero hf hk.lt]
    refine ⟨⟨?_, ?_, ?_, ?_⟩, ?_, ?_, ?_⟩
    · intro f hf
      rw [hact f hf]
      exact getD_mem' (hk.lt f hf)
    · rw [hsz]; exact hk.lo
    · rw [hsz]; exact hk.hi
    · rw [List.map_congr_left fun f hf => by rw [hact f hf]]
      exact hk.score
    · intro f hf k a ha
      obtain ⟨hkl, hka⟩ := List.getElem?_eq_some_iff.mp ha
      rw [he.u f hf k hkl, hact f hf]
      have hlt := hk.lt f hf
      have : k = κ f.idx ↔ a = f.act κ := by
        unfold Feat.act
        rw [List.getD_eq_getElem _ _ hlt, ← hka]
        exact ((hok.nodupA f hf).getElem_inj_iff).symm
      simp only [this]
    · rw [hobj]; exact hc.le_obj hok he hcv
    · intro hct
      rw [hobj]
      unfold Mip.objVal
      rw [hc.obj]
      have := objective_eq (ct := b0.costType) hok he hcv
      rw [if_neg hct, zero_add] at this
      exact this.symm

/-- Non-vacuity of C24: two binary features, the assignment "change both". -/
example : ∃ b1 : Builder ℚ, exBuild .cpx .max [[0, 0], [1, 1]] ["a", "b"] .ok [1, 2] (-1) [0, 0] = .ok b1 ∧
    b1.aset.cons.items = [] ∧ b1.feats.map (·.actions) = [[0, 1], [0, 1]] ∧
    b1.feats.map (·.idx) = [0, 1] ∧ (b1.minItems, b1.maxItems) = (0, 2) ∧
    0 ≤ b1.score [0, 0] + (b1.feats.map fun f => f.coef * 1).sum := by decide +kernel

/-! ## C28 -/

/-- What `fit` reports, in terms of a choice of actions. -/
theorem fit_report (hso : SetOrderOk ext) (ho : o.Exact) (hr : b0.Reachable ext)
    (hx : b0.setX ext x = (b1, .ok ())) (ha : b1.After o b) (hf : b.fit o = .ok (b', i))
    (hi : i.feasible = true) :
    ∃ feats κ a cs c, i.actions = some a ∧ i.costs = some cs ∧ i.cost = .fin c ∧
      (b0.buildInfo ext x = .ok feats ∧ Choice feats κ ∧ a = actVec b0.coefs.length feats κ ∧
        cs = cstVec b0.coefs.length feats κ) ∧
      (∀ (j : ℕ) (aj cj : K), a[j]? = some aj → cs[j]? = some cj →
        (aj = 0 → cj = 0) ∧ (aj ≠ 0 → 0 < cj)) ∧
      (b0.costType = .max → c ∈ cs ∧ ∀ v ∈ cs, v ≤ c) ∧
      (b0.costType ≠ .max → c = cs.sum) := by
  obtain ⟨feats, h1, h2, h3⟩ := Posed.setX hso hr.ok hx
  obtain ⟨Q, -, hq⟩ := h3.after h2 ho.1 ha
  obtain ⟨-, -, rfl⟩ := fit_ok hf
  rcases hq.solved h2 ho.1 with ⟨-, he, -⟩ | ⟨σ, κ, -, -, hk, -, hrep, hbest⟩
  · rw [he] at hi; cases hi
  have hbest := hbest ho.2
  refine ⟨feats, κ, _, _, _, hrep.actions, hrep.costs, hbest.cost, ⟨h1, hk.lt, rfl, rfl⟩, ?_, ?_, ?_⟩
  · intro j aj cj haj hcj
    have hj : j < b0.coefs.length := by
      rw [← actVec_length b0.coefs.length feats κ]; exact (List.getElem?_eq_some_iff.mp haj).1
    by_cases hfe : ∃ f ∈ feats, f.idx = j
    · obtain ⟨f, hfm, rfl⟩ := hfe
      have e1 := put_feat h2 (fun f => f.act κ) hfm
      have e2 := put_feat h2 (fun f => f.cst κ) hfm
      change (actVec b0.coefs.length feats κ)[f.idx]? = _ at e1
      change (cstVec b0.coefs.length feats κ)[f.idx]? = _ at e2
      have haj' : (actVec b0.coefs.length feats κ)[f.idx]? = some aj := haj
      have hcj' : (cstVec b0.coefs.length feats κ)[f.idx]? = some cj := hcj
      rw [haj'] at e1; rw [hcj'] at e2; cases e1; cases e2
      have hz := h2.act_zero hfm hk.lt
      have hc := h2.cst_pos hfm hk.lt
      exact ⟨fun h => hc.1 (hz.mp h), fun h => hc.2 fun hh => h (hz.mpr hh)⟩
    · push Not at hfe
      have e1 := put_other (n := b0.coefs.length) (fun f : Feat K => f.act κ) hj hfe
      have e2 := put_other (n := b0.coefs.length) (fun f : Feat K => f.cst κ) hj hfe
      have haj' : (npPut b0.coefs.length (feats.map fun f => (f.idx, f.act κ)))[j]? = some aj := haj
      have hcj' : (npPut b0.coefs.length (feats.map fun f => (f.idx, f.cst κ)))[j]? = some cj := hcj
      rw [haj'] at e1; rw [hcj'] at e2; cases e1; cases e2
      exact ⟨fun _ => rfl, fun h => absurd rfl h⟩
  · intro hct
    have hct' : (b0.buildArgs x feats).costType = .max := hct
    rw [if_pos hct']
    change choiceMax feats κ ∈ cstVec b0.coefs.length feats κ ∧
      ∀ v ∈ cstVec b0.coefs.length feats κ, v ≤ choiceMax feats κ
    obtain ⟨m1, m2, m3⟩ := choiceMax_spec feats κ
    -- some feature is changed, so the maximum is positive
    have hsz : 1 ≤ choiceSize feats κ := le_trans (le_max_right _ _) hk.lo
    obtain ⟨f, hfm, hfc⟩ : ∃ f ∈ feats, κ f.idx ≠ 0 := by
      unfold choiceSize at hsz
      have := List.countP_pos_iff.mp hsz
      simpa using this
    have hpos := (h2.cst_pos hfm hk.lt).2 hfc
    constructor
    · rcases m3 with m3 | ⟨g, hg, m3⟩
      · have := m2 f hfm; linarith
      · rw [m3]; exact List.mem_of_getElem? (put_feat h2 (fun f => f.cst κ) hg)
    · intro v hv
      obtain ⟨j, hj, rfl⟩ := List.mem_iff_getElem.mp hv
      have hjn : j < b0.coefs.length := by rwa [cstVec_length] at hj
      by_cases hg : ∃ g ∈ feats, g.idx = j
      · obtain ⟨g, hg, rfl⟩ := hg
        have := put_feat h2 (fun f => f.cst κ) hg
        change (cstVec b0.coefs.length feats κ)[g.idx]? = _ at this
        rw [List.getElem?_eq_getElem hj] at this
        rw [Option.some.inj this]
        exact m2 g hg
      · push Not at hg
        have := put_other (n := b0.coefs.length) (fun f : Feat K => f.cst κ) hjn hg
        change (cstVec b0.coefs.length feats κ)[j]? = _ at this
        rw [List.getElem?_eq_getElem hj] at this
        rw [Option.some.inj this]
        exact m1
  · intro hct
    have hct' : (b0.buildArgs x feats).costType ≠ .max := hct
    rw [if_neg hct']
    exact (cstVec_sum h2).symm

/-- **C28.**  For a feasible answer of an exact solver: every entry of `costs` is the cost of the change
of that feature (percentile shift, or log ratio), it is 0 on unchanged features and positive on changed
ones; `cost` is their maximum for cost type `max` and their sum otherwise.  (For cost type `local` the
percentiles in use have to be below 1, as they are unless the density estimate is degenerate, see C08.) -/
theorem C28_costs (hso : SetOrderOk ext) (hlog : LogOk ext) (ho : o.Exact) (hr : b0.Reachable ext)
    (hp : b0.costType = .loc → ∀ e ∈ b0.aset.elems, ∀ v p, e.percentile ext v = .ok p → p < 1)
    (hx : b0.setX ext x = (b1, .ok ())) (ha : b1.After o b) (hf : b.fit o = .ok (b', i))
    (hi : i.feasible = true) :
    ∃ a cs c, i.actions = some a ∧ i.costs = some cs ∧ i.cost = .fin c ∧
      ActionCosts ext b0.costType b0.aset x a cs ∧
      (∀ (j : ℕ) (aj cj : K), a[j]? = some aj → cs[j]? = some cj →
        (aj = 0 → cj = 0) ∧ (aj ≠ 0 → 0 < cj)) ∧
      (b0.costType = .max → c ∈ cs ∧ ∀ v ∈ cs, v ≤ c) ∧
      (b0.costType ≠ .max → c = cs.sum) := by
  obtain ⟨feats, κ, a, cs, c, h1, h2, h3, ⟨h4, h5, rfl, rfl⟩, h6, h7, h8⟩ := fit_report hso ho hr hx ha hf hi
  exact ⟨_, _, c, h1, h2, h3, choice_actionCosts hso hr.ok h4 hlog hp h5, h6, h7, h8⟩

theorem exExt_log : LogOk exExt := by intro r _; simp [exExt]

/-- Non-vacuity of C28 (its hypotheses are those of C22 with an exact solver, see `C22_example`): on that
instance the reported cost is the percentile shift of one binary feature, almost 1/2. -/
example : ∃ b1 : Builder ℚ,
    exBuild .pymip .total [[0, 0], [1, 1]] ["a", "b"] .ok [1, 2] (-1) [0, 0] = .ok b1 ∧
    ∀ o : Oracle ℚ, o.Exact → ∃ b' i, b1.fit o = .ok (b', i) ∧ i.feasible = true ∧
      i.cost = .fin (500000 / 1000001) := by
  have key : ∃ b1 : Builder ℚ,
      exBuild .pymip .total [[0, 0], [1, 1]] ["a", "b"] .ok [1, 2] (-1) [0, 0] = .ok b1 ∧
      b1.costType = .total ∧
      admitted (b1.buildArgs [0, 0] b1.feats) (fun _ => true) ≠ [] ∧
      ∀ κ ∈ optChoices (b1.buildArgs [0, 0] b1.feats) (fun _ => true),
        choiceSum b1.feats κ = 500000 / 1000001 := by decide +kernel
  obtain ⟨b1, h1, hct, h2, h3⟩ := key
  refine ⟨b1, h1, fun o ho => ?_⟩
  obtain ⟨b', i, h4, h5⟩ := exFit h1 (fun A A' => prep_ok) ho
  refine ⟨b', i, h4, ?_⟩
  rcases h5 with ⟨h, -⟩ | ⟨κ, hκ, hf, -, -, hc, -⟩
  · exact absurd h h2
  · exact ⟨hf, by rw [hc, hct, if_neg (by decide), h3 κ hκ]⟩

end Recourse
