import Verif.Props.Enum

/-!
# Recommended actions contain nothing superfluous (C68, C69)
-/

set_option linter.unusedSectionVars false

namespace Recourse

variable {K : Type} [Field K] [LinearOrder K] [IsStrictOrderedRing K] [FloorRing K]

variable {ext : Ext K} {o : Oracle K} {b0 b1 b b' : Builder K} {x : List K} {i : Info K} {n : ℕ}
  {feats : List (Feat K)} {κ : ℕ → ℕ} {a' : List K} {et : EnumType} {fuel : ℕ} {total : Option ℕ}
  {l : List (Info K)}

/-- The choice with some changes left out. -/
def undo (a' : List K) (κ : ℕ → ℕ) : ℕ → ℕ := fun j => if a'.getD j 0 = 0 then 0 else κ j

theorem undo_choice (hok : FeatsOK n feats) (hκ : Choice feats κ) : Choice feats (undo a' κ) := by
  intro f hf
  unfold undo
  have := hok.two f hf
  split_ifs
  · omega
  · exact hκ f hf

theorem undo_actVec (hok : FeatsOK n feats) (hκ : Choice feats κ) (hp : ProperPart a' (actVec n feats κ)) :
    actVec n feats (undo a' κ) = a' := by
  have hl : (actVec n feats κ).length = n := actVec_length n feats κ
  have hl' : (actVec n feats (undo a' κ)).length = n := actVec_length n feats _
  have hla : a'.length = n := by rw [hp.1, hl]
  refine List.ext_getElem? fun j => ?_
  by_cases hj : j < n
  · have haj := List.getElem?_eq_getElem (l := a') (i := j) (by omega)
    have hgd : a'.getD j 0 = a'[j]'(by omega) := by rw [List.getD_eq_getElem?_getD, haj]; rfl
    have hpj := hp.2.1 j
    by_cases hf : ∃ f ∈ feats, f.idx = j
    · obtain ⟨f, hf, rfl⟩ := hf
      have h1 := put_feat hok (fun f => f.act (undo a' κ)) hf
      change (actVec n feats (undo a' κ))[f.idx]? = _ at h1
      have h2 := put_feat hok (fun f => f.act κ) hf
      change (actVec n feats κ)[f.idx]? = _ at h2
      rw [h1, haj, ← hgd]
      rw [List.getD_eq_getElem?_getD (l := actVec n feats κ), h2] at hpj
      by_cases h0 : a'.getD f.idx 0 = 0
      · rw [h0, (hok.act_zero hf (undo_choice hok hκ)).mpr (by unfold undo; rw [if_pos h0])]
      · rcases hpj with hpj | hpj
        · exact absurd hpj h0
        · rw [hpj]
          unfold Feat.act undo
          rw [if_neg h0]
          rfl
    · push Not at hf
      have h1 := put_other (n := n) (fun f : Feat K => f.act (undo a' κ)) hj hf
      change (actVec n feats (undo a' κ))[j]? = _ at h1
      have h2 := put_other (n := n) (fun f : Feat K => f.act κ) hj hf
      change (actVec n feats κ)[j]? = _ at h2
      rw [List.getD_eq_getElem?_getD (l := actVec n feats κ), h2] at hpj
      rw [h1, haj, ← hgd]
      rcases hpj with hpj | hpj <;> rw [hpj] <;> rfl
  · rw [List.getElem?_eq_none (by omega), List.getElem?_eq_none (by omega)]

theorem undo_cst (hok : FeatsOK n feats) (hκ : Choice feats κ) {f : Feat K} (hf : f ∈ feats) :
    f.cst (undo a' κ) ≤ f.cst κ ∧ (undo a' κ f.idx ≠ κ f.idx → f.cst (undo a' κ) < f.cst κ) := by
  have h1 := hok.cst_pos hf (undo_choice (a' := a') hok hκ)
  have h2 := hok.cst_pos hf hκ
  by_cases h0 : a'.getD f.idx 0 = 0
  · have hu : undo a' κ f.idx = 0 := by unfold undo; rw [if_pos h0]
    rw [h1.1 hu, hu]
    refine ⟨hok.cst_nonneg hκ hf, fun hne => h2.2 (Ne.symm hne)⟩
  · have hu : undo a' κ f.idx = κ f.idx := by unfold undo; rw [if_neg h0]
    have : f.cst (undo a' κ) = f.cst κ := by unfold Feat.cst; rw [hu]
    exact ⟨this.le, fun h => absurd hu h⟩

theorem undo_obj (hok : FeatsOK n feats) (hκ : Choice feats κ) (hp : ProperPart a' (actVec n feats κ))
    {ct : CostType} (he : ct = .max → 0 < epsilon feats) :
    choiceObj ct feats (undo a' κ) < choiceObj ct feats κ := by
  have hle : ∀ f ∈ feats, f.cst (undo a' κ) ≤ f.cst κ := fun f hf => (undo_cst hok hκ hf).1
  obtain ⟨f, hf, hne⟩ : ∃ f ∈ feats, undo a' κ f.idx ≠ κ f.idx := by
    by_contra hall
    push Not at hall
    apply hp.2.2
    rw [← undo_actVec hok hκ hp]
    unfold actVec
    congr 1
    refine List.map_congr_left fun f hf => ?_
    unfold Feat.act
    rw [hall f hf]
  have hlt : choiceSum feats (undo a' κ) < choiceSum feats κ := by
    unfold choiceSum
    exact List.sum_lt_sum (fun f => f.cst (undo a' κ)) _ hle ⟨f, hf, (undo_cst hok hκ hf).2 hne⟩
  have hmax : choiceMax feats (undo a' κ) ≤ choiceMax feats κ :=
    choiceMax_le (choiceMax_spec feats κ).1 fun g hg => le_trans (hle g hg) ((choiceMax_spec feats κ).2.1 g hg)
  cases ct with
  | max => exact add_lt_add_of_le_of_lt hmax (mul_lt_mul_of_pos_left hlt (he rfl))
  | total => exact hlt
  | loc => exact hlt

theorem undo_ok (hso : SetOrderOk ext) (hb : BuilderOK ext b) (h : b.buildInfo ext x = .ok feats)
    (hla : LimitsApply b.aset x) (hm : b.minItems ≤ 1) (hden : Denied b x)
    (hκ : ChoiceOK (b.buildArgs x feats) κ) (hp : ProperPart a' (actVec b.coefs.length feats κ))
    (hs : ReachesScore b.aset.yDesired b.coefs b.intercept x a') (hlim : RespectsLimits b.aset x a') :
    ChoiceOK (b.buildArgs x feats) (undo a' κ) := by
  have hok := buildInfo_ok hso hb h
  obtain ⟨-, hxl, hspec, -⟩ := buildInfo_spec hso hb h
  have hu := undo_choice (a' := a') hok hκ.lt
  have ha := undo_actVec hok hκ.lt hp
  have hlen : (actVec b.coefs.length feats (undo a' κ)).length = x.length := by
    rw [actVec_length, hxl, hb.coefs]
  refine ⟨hu, ?_, ?_, ?_, ?_⟩
  · have hd : dot b.coefs (vadd x (actVec b.coefs.length feats (undo a' κ))) + b.intercept
        = b.score x + choiceGain feats (undo a' κ) := by
      rw [dot_vadd _ _ _ hlen.symm, actVec_dot hok rfl (fun f hf => by
        obtain ⟨_, _, _, _, hs⟩ := hspec f hf
        exact hs.coef)]
      unfold Builder.score; ring
    rw [← ha] at hs
    unfold ReachesScore at hs
    rw [hd] at hs
    exact hs
  · change max b.minItems 1 ≤ choiceSize feats (undo a' κ)
    rw [← actVec_countP hok hu, ha]
    have := numChanged_pos hb.aset.wf.y hden (by rw [← ha]; exact hlen) hs
    unfold numChanged at this
    exact max_le (le_trans hm this) this
  · refine le_trans ?_ hκ.hi
    change choiceSize feats (undo a' κ) ≤ choiceSize feats κ
    unfold choiceSize
    refine List.countP_mono_left fun f _ => ?_
    unfold undo
    split_ifs
    · simp
    · exact id
  · refine (limits_iff hso hb h hla hu).mpr ?_
    rw [ha]
    exact hlim

theorem eps_pos (hso : SetOrderOk ext) (hb : BuilderOK ext b) (h : b.buildInfo ext x = .ok feats)
    (hreg : Regular ext b x) (hct : b.costType = .max) (hκ : ChoiceOK (b.buildArgs x feats) κ) :
    0 < epsilon feats := by
  have hne : b.costType ≠ .loc := by rw [hct]; decide
  have h2 := buildInfo_ok hso hb h
  obtain ⟨-, hxl, hspec, -⟩ := buildInfo_spec hso hb h
  have hsz : 1 ≤ choiceSize feats κ := le_trans (le_max_right _ _) hκ.lo
  obtain ⟨f, hfm, -⟩ : ∃ f ∈ feats, κ f.idx ≠ 0 := by
    unfold choiceSize at hsz
    have := List.countP_pos_iff.mp hsz
    simpa using this
  have hne0 : feats ≠ [] := List.ne_nil_of_mem hfm
  unfold epsilon
  rw [if_neg (by simpa using hne0)]
  have hsort : ∀ g ∈ feats, g.costs.Pairwise (· < ·) := by
    intro g hg
    obtain ⟨e, xj, t, T, hs⟩ := hspec g hg
    exact hs.costs_sorted hb hreg.situated.placed hne
  refine div_pos ?_ ?_
  · obtain ⟨g, hg, hge⟩ := List.mem_map.mp (npMin_mem (l := feats.map fun f => npMin (npDiff f.costs))
      (by simpa using hne0))
    rw [← hge]
    exact npDiff_pos (hsort g hg) _ (npMin_mem (npDiff_ne_nil (by rw [← h2.len g hg]; exact h2.two g hg)))
  · have hpos : ∀ g ∈ feats, 0 < npMax g.costs := by
      intro g hg
      have h1 : 1 < g.costs.length := by rw [← h2.len g hg]; exact h2.two g hg
      have hc0 := h2.c0 g hg
      have hlt := List.pairwise_iff_getElem.mp (hsort g hg) 0 1 (by omega) h1 Nat.zero_lt_one
      have h0 : g.costs[0]'(by omega) = 0 := by
        have := List.getElem?_eq_getElem (l := g.costs) (i := 0) (by omega)
        simpa [List.getD_eq_getElem?_getD, this] using hc0
      rw [h0] at hlt
      exact lt_of_lt_of_le hlt (le_npMax (List.getElem_mem h1))
    refine lt_of_lt_of_le (hpos f hfm) (List.single_le_sum ?_ _ (List.mem_map_of_mem hfm))
    intro v hv
    obtain ⟨g, hg, rfl⟩ := List.mem_map.mp hv
    exact (hpos g hg).le

/-- **C68.**  For a denied point and an exact solver, the recommended action contains nothing superfluous: no action
obtained by leaving out some of its changes reaches the desired side of the boundary (within the subset limits, if
there are any).  For cost type `max` in regular situations. -/
theorem C68_no_superfluous (hso : SetOrderOk ext) (ho : o.Exact) (hr : b0.Reachable ext)
    (hla : LimitsApply b0.aset x) (hm : b0.minItems ≤ 1) (hden : Denied b0 x)
    (hmax : b0.costType = .max → Regular ext b0 x) (hx : b0.setX ext x = (b1, .ok ()))
    (ha : b1.Refitted o b) (hf : b.fit o = .ok (b', i)) (hi : i.feasible = true) :
    ∃ a, i.actions = some a ∧ ∀ a', ProperPart a' a →
      ¬ (ReachesScore b0.aset.yDesired b0.coefs b0.intercept x a' ∧ RespectsLimits b0.aset x a') := by
  obtain ⟨feats, h1, h2, h3⟩ := Posed.setX hso hr.ok hx
  obtain ⟨-, -, rfl⟩ := fit_ok hf
  rcases (h3.refitted ha).solved h2 ho.1 with ⟨-, he, -⟩ | ⟨σ, κ, -, -, hk, -, hrep, hbest⟩
  · rw [he] at hi; cases hi
  refine ⟨_, hrep.actions, fun a' hp hs => ?_⟩
  have h4 := (hbest ho.2).least _ (undo_ok hso hr.ok h1 hla hm hden hk hp hs.1 hs.2) trivial
  exact absurd h4 (not_le.mpr (undo_obj h2 hk.lt hp fun h => eps_pos hso hr.ok h1 (hmax h) h hk))

/-- The items of an enumeration are optimal among what the earlier ones left. -/
theorem Trace.split {be : Backend} {p : BuildArgs K} {ex : Prop} : ∀ {pre : List ((ℕ → ℕ) × Info K)}
    {P : (ℕ → ℕ) → Prop} {q : (ℕ → ℕ) × Info K} {post : List ((ℕ → ℕ) × Info K)},
    Trace n be et p ex P (pre ++ q :: post) → ChoiceOK p q.1 ∧ Reports n p q.1 q.2 ∧
    (∀ r ∈ pre, ChoiceOK p r.1 ∧ Reports n p r.1 r.2 ∧ CutBy et be p.feats r.1 q.1) ∧
    (ex → ∀ κ', ChoiceOK p κ' → P κ' → (∀ r ∈ pre, CutBy et be p.feats r.1 κ') →
      choiceObj p.costType p.feats q.1 ≤ choiceObj p.costType p.feats κ')
  | [], P, (κ, i), post, ⟨h1, _, h3, h4, _⟩ =>
    ⟨h1, h3, by simp, fun he κ' hk hP _ => (h4 he).least κ' hk hP⟩
  | (κ, i) :: pre, P, q, post, ⟨h1, _, h3, _, h5⟩ => by
    obtain ⟨g1, g2, g3, g4⟩ := Trace.split h5
    have hq := (h5.mem q (by simp)).2.1.2
    refine ⟨g1, g2, ?_, fun he κ' hk hP hc => g4 he κ' hk ⟨hP, hc _ (List.mem_cons_self ..)⟩
      fun r hr => hc r (List.mem_cons_of_mem _ hr)⟩
    intro r hr
    rcases List.mem_cons.mp hr with rfl | hr
    · exact ⟨h1, h3, hq⟩
    · exact g3 r hr

/-- **C68** for enumerations by an exact solver: items of `mutually_exclusive` contain nothing superfluous, and if
leaving out changes of an item of `distinct_subsets` still leads to the desired side, an earlier item changes
exactly the features that are still changed. -/
theorem C68_items (hso : SetOrderOk ext) (ho : o.Exact) (hr : b0.Reachable ext)
    (hla : LimitsApply b0.aset x) (hm : b0.minItems ≤ 1) (hden : Denied b0 x)
    (hmax : b0.costType = .max → Regular ext b0 x) (hx : b0.setX ext x = (b1, .ok ()))
    (hc : et = .distinctSubsets → b0.backend = .pymip ∨ b0.aset.cons.items = [] ∨ ListedBinary b0.aset x)
    (ha : b1.Refitted o b) (hp : b.populate o et fuel total = .ok (some (b', l)))
    {pre post : List (Info K)} (hl : l = pre ++ i :: post) :
    ∃ a, i.actions = some a ∧ ∀ a', ProperPart a' a →
      ReachesScore b0.aset.yDesired b0.coefs b0.intercept x a' → RespectsLimits b0.aset x a' →
      et = .distinctSubsets ∧ ∃ i' ∈ pre, ∃ a'', i'.actions = some a'' ∧ SameFeatures a'' a' := by
  obtain ⟨feats, h1, h2, h3⟩ := Posed.setX hso hr.ok hx
  obtain ⟨t, rfl, ht, -⟩ := (h3.refitted ha).popLoop h2 ho.1 (populate_ok hp).2.2
  rw [List.nil_append] at hl
  obtain ⟨t1, t2, rfl, rfl, ht2⟩ := List.map_eq_append_iff.mp hl
  obtain ⟨q, t3, rfl, rfl, rfl⟩ := List.map_eq_cons_iff.mp ht2
  obtain ⟨hk, hrep, hpre, hbest⟩ := ht.split
  refine ⟨_, hrep.actions, fun a' hpp hs hlim => ?_⟩
  have hu := undo_ok hso hr.ok h1 hla hm hden hk hpp hs hlim
  have hlt : choiceObj b0.costType feats (undo a' q.1) < choiceObj b0.costType feats q.1 :=
    undo_obj h2 hk.lt hpp fun h => eps_pos hso hr.ok h1 (hmax h) h hk
  obtain ⟨r, hrm, hcut⟩ : ∃ r ∈ t1, ¬ CutBy et b0.backend feats r.1 (undo a' q.1) := by
    by_contra hall
    push Not at hall
    exact absurd (hbest ho.2 _ hu trivial hall) (not_le.mpr hlt)
  obtain ⟨r1, r2, r3⟩ := hpre r hrm
  cases et with
  | mutuallyExclusive =>
    exfalso
    apply hcut
    intro f hf hne
    unfold undo
    split_ifs
    · rfl
    · exact r3 f hf hne
  | distinctSubsets =>
    refine ⟨rfl, r.2, List.mem_map_of_mem hrm, _, r2.actions, ?_⟩
    rw [(cutsOff_of hso hr.ok h1 (hc rfl)).iff h2 r1.lt hu.lt, not_not, undo_actVec h2 hk.lt hpp] at hcut
    exact hcut

/-- Non-vacuity of C68 and C69: `a + b - 2` at the origin needs both binary features; every exact solver answers
"change both". -/
theorem C68_example (be : Backend) (ct : CostType) : ∃ b0 b1 : Builder ℚ,
    b0.Reachable exExt ∧ b0.costType = ct ∧ Regular exExt b0 [0, 0, 0] ∧ Denied b0 [0, 0, 0] ∧
    b0.setX exExt [0, 0, 0] = (b1, .ok ()) ∧ ∀ o : Oracle ℚ, o.Exact → ∃ b' i, b1.fit o = .ok (b', i) ∧
      i.feasible = true ∧ (i.actions = some [1, 1, 0] ∨ i.actions = some [1, 0, 1] ∨ i.actions = some [0, 1, 1]) ∧
      ProperPart [1, 0, 0] [(1 : ℚ), 1, 0] := by
  have key : ∀ be ct, ∃ b0 : Builder ℚ,
      exBuilderE be ct [[0, 0, 0], [1, 1, 1]] ["a", "b", "c"] .ok [1, 1, 1] (-2) = .ok b0 ∧ b0.costType = ct ∧
      regularB exExt b0 [0, 0, 0] = true ∧ Denied b0 [0, 0, 0] ∧ (b0.setX exExt [0, 0, 0]).2 = .ok () ∧
      admitted (b0.buildArgs [0, 0, 0] (b0.setX exExt [0, 0, 0]).1.feats) (fun _ => true) ≠ [] ∧
      ∀ κ ∈ optChoices (b0.buildArgs [0, 0, 0] (b0.setX exExt [0, 0, 0]).1.feats) (fun _ => true),
        actVec b0.coefs.length (b0.setX exExt [0, 0, 0]).1.feats κ ∈ [[1, 1, 0], [1, 0, 1], [0, 1, 1]] := by
    intro be ct; cases be <;> cases ct <;> decide +kernel
  obtain ⟨b0, h1, h2, h3, h4, h5, h6, h7⟩ := key be ct
  have hr : b0.Reachable exExt := exBuilderE_reachable h1 fun A A' => prep_ok
  obtain ⟨b1, hs⟩ : ∃ b1, b0.setX exExt [0, 0, 0] = (b1, .ok ()) := ⟨_, Prod.ext rfl h5⟩
  refine ⟨b0, b1, hr, h2, regular_of_b hr.ok exExt_pos h3, h4, hs, fun o ho => ?_⟩
  obtain ⟨b1', feats, g1, -, g2, b', i, g3, g4⟩ := exSolve exExt_order hr h5 ho
  rw [hs] at g1; cases g1
  refine ⟨b', i, g3, ?_⟩
  rw [g2] at h6 h7
  rcases g4 with ⟨h, -⟩ | ⟨κ, hκ, -, hf, hact, -⟩
  · exact absurd h h6
  · refine ⟨hf, ?_, by decide, fun j => ?_, by decide⟩
    · have := h7 κ hκ
      rw [hact]
      simpa using this
    · match j with
      | 0 => simp
      | 1 => simp
      | j + 2 => simp

/-! ## C69 -/

/-- **C69.**  Every change of a recommended action helps: it moves the score towards the desired side.  (Changes of
features listed in a subset limit need not.)  For every sound solver, also when stopped by limits, whatever happened
since the point was assigned. -/
theorem C69_helps (hso : SetOrderOk ext) (ho : o.Sound) (hr : b0.Reachable ext)
    (hx : b0.setX ext x = (b1, .ok ())) (ha : b1.After o b) (hf : b.fit o = .ok (b', i))
    (hi : i.feasible = true) : ∃ a, i.actions = some a ∧ Useful b0.aset b0.coefs a := by
  obtain ⟨feats, h1, h2, h3⟩ := Posed.setX hso hr.ok hx
  obtain ⟨Q, -, hq⟩ := h3.after h2 ho ha
  obtain ⟨-, -, rfl⟩ := fit_ok hf
  rcases hq.solved h2 ho with ⟨-, he, -⟩ | ⟨σ, κ, -, -, hk, -, hrep, -⟩
  · rw [he] at hi; cases hi
  · exact ⟨_, hrep.actions, choice_useful hso hr.ok h1 hk.lt⟩

/-- C69 for the items of `populate`. -/
theorem C69_items (hso : SetOrderOk ext) (ho : o.Sound) (hr : b0.Reachable ext)
    (hx : b0.setX ext x = (b1, .ok ())) (ha : b1.After o b)
    (hp : b.populate o et fuel total = .ok (some (b', l))) :
    ∀ i ∈ l, ∃ a, i.actions = some a ∧ Useful b0.aset b0.coefs a := by
  obtain ⟨feats, h1, h2, h3⟩ := Posed.setX hso hr.ok hx
  obtain ⟨Q, -, hq⟩ := h3.after h2 ho ha
  obtain ⟨t, rfl, ht, -⟩ := hq.popLoop h2 ho (populate_ok hp).2.2
  intro i hi
  rw [List.nil_append] at hi
  obtain ⟨q, hq', rfl⟩ := List.mem_map.mp hi
  obtain ⟨hk, -, hrep⟩ := ht.mem q hq'
  exact ⟨_, hrep.actions, choice_useful hso hr.ok h1 hk.lt⟩

end Recourse
