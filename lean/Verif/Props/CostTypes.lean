import Verif.Props.Optimal

/-!
# C116: the cost types agree with each other
-/

set_option linter.unusedSectionVars false

namespace Recourse

variable {K : Type} [Field K] [LinearOrder K] [IsStrictOrderedRing K] [FloorRing K]

variable {ext : Ext K} {ot om : Oracle K} {bt bt1 bt2 bt3 bm bm1 bm2 bm3 : Builder K} {x : List K} {it im : Info K}

/-- Costs of types `total` and `max` are the same percentile shifts. -/
theorem actionCosts_total_max {A : ActionSet K} {x a cs : List K} :
    ActionCosts ext .total A x a cs ↔ ActionCosts ext .max A x a cs := by
  unfold ActionCosts MoveCost
  simp

/-- A sum of costs is at most the number of changes times the largest cost. -/
theorem sum_le_changed {M : K} : ∀ {a cs : List K}, cs.length = a.length → (∀ v ∈ cs, v ≤ M) →
    (∀ (j : ℕ) (aj cj : K), a[j]? = some aj → cs[j]? = some cj → aj = 0 → cj = 0) →
    cs.sum ≤ (numChanged a : K) * M := by
  intro a
  induction a with
  | nil => intro cs h _ _; cases cs with
    | nil => simp [numChanged]
    | cons c cs => simp at h
  | cons v a ih =>
    intro cs h hM h0
    cases cs with
    | nil => simp at h
    | cons c cs =>
      have e := ih (cs := cs) (by simpa using h) (fun u hu => hM u (List.mem_cons_of_mem _ hu))
        (fun j aj cj h1 h2 => h0 (j + 1) aj cj (by simpa using h1) (by simpa using h2))
      have hc := hM c (List.mem_cons_self ..)
      unfold numChanged at e ⊢
      rw [List.sum_cons, List.countP_cons]
      by_cases hv : v = 0
      · have := h0 0 v c rfl rfl hv
        rw [this, if_neg (by simp [hv]), add_zero, zero_add]
        exact e
      · rw [if_pos (by simp [hv]), Nat.cast_add, Nat.cast_one, add_mul, one_mul]
        linarith

/-- **C116.**  Two builders of the same action set and classifier, with the same item limits, one of cost type `total` and one
of cost type `max`, are asked about the same denied point in a regular situation, each with an exact solver.  Either both find
an answer or both report that there is none.  If they find answers, the total cost is at most the number of changes of the
answer of type `max` times the maximal cost, and the maximal cost exceeds the total cost by less than every cost step; it does
not exceed it at all if distinct costs differ by at least some cost step. -/
theorem C116_cost_types (hso : SetOrderOk ext) (hlog : LogOk ext) (hot : ot.Exact) (hom : om.Exact)
    (hrt : bt.Reachable ext) (hrm : bm.Reachable ext) (hct : bt.costType = .total) (hcm : bm.costType = .max)
    (hA : bm.aset = bt.aset) (hw : bm.coefs = bt.coefs) (hi : bm.intercept = bt.intercept)
    (hn : bm.maxItems = bt.maxItems) (hm1 : bm.minItems ≤ 1) (hreg : Regular ext bt x) (hden : Denied bt x)
    (hxt : bt.setX ext x = (bt1, .ok ())) (hat : bt1.Refitted ot bt2) (hft : bt2.fit ot = .ok (bt3, it))
    (hxm : bm.setX ext x = (bm1, .ok ())) (ham : bm1.Refitted om bm2) (hfm : bm2.fit om = .ok (bm3, im)) :
    it.feasible = im.feasible ∧ (it.feasible = true → ∃ ct cm at' am, it.cost = .fin ct ∧ im.cost = .fin cm ∧
      it.actions = some at' ∧ im.actions = some am ∧
      ct ≤ (numChanged am : K) * cm ∧
      (∀ γ, CostStep ext bm x γ → cm < ct + γ) ∧
      (∀ γ, CostStep ext bm x γ → (∀ g g', SomeMoveCost ext bm x g → SomeMoveCost ext bm x g' → g < g' →
        γ ≤ g' - g) → cm ≤ ct)) := by
  have hregm : Regular ext bm x := by
    refine ⟨?_, ?_, hm1, ?_, ?_, ?_, fun h => ?_⟩
    · rw [hA]; exact hreg.limits
    · rw [hA, hw]; exact hreg.aligned
    · rw [hA]; exact hreg.fits
    · rw [hA]; exact hreg.apart
    · rw [hA]; exact hreg.pct
    · rw [hcm] at h; cases h
  have hdenm : Denied bm x := by unfold Denied; rw [hA, hw, hi]; exact hden
  have hf : it.feasible = im.feasible := by
    have e1 := (C25_no_recourse hso hlog hot hrt hreg hden hxt hat hft).1
    have e2 := (C25_no_recourse hso hlog hom hrm hregm hdenm hxm ham hfm).1
    rw [hA, hw, hi, hn] at e2
    have := e1.trans e2.symm
    cases h1 : it.feasible <;> cases h2 : im.feasible <;> simp_all
  refine ⟨hf, fun hfe => ?_⟩
  have hfe' : im.feasible = true := hf ▸ hfe
  obtain ⟨ct, at', cst, t1, t2, t3, t4, t5, t7, t6⟩ :=
    C26_sum_minimal hso hlog hot hrt hreg hden (by rw [hct]; decide) hxt hat hft hfe
  obtain ⟨cm, am, csm, m1, m2, m3, m4, m5, m6, m7, m8⟩ :=
    C27_max_partial hso hlog hom hrm hregm hdenm hcm hxm ham hfm hfe'
  obtain ⟨a0, cs0, c0, n1, n2, n3, -, n7, -, -⟩ := C28_costs hso hlog hot hrt (fun h => by rw [hct] at h; cases h) hxt hat.after hft hfe
  rw [t3] at n2
  obtain rfl := Option.some.inj n2
  rw [t1] at n3
  obtain rfl := XV.fin.inj n3
  refine ⟨ct, cm, at', am, t1, m1, t2, m2, ?_, ?_⟩
  · -- the answer of type max is also a recourse for type total
    have e := t6 am csm (by rw [← hA, ← hw, ← hi, ← hn]; exact m4)
      (by rw [hct]; exact actionCosts_total_max.mpr (by rw [← hA, ← hcm]; exact m5))
    refine le_trans e (sum_le_changed ?_ m7 ?_)
    · rw [m5.1]; exact m4.permitted.1.symm
    · intro j aj cj h1 h2 h0
      have hj : j < x.length := by
        rw [← m5.1]; exact (List.getElem?_eq_some_iff.mp h2).1
      have hl : bm.aset.elems.length = x.length := by
        obtain ⟨feats, h1, -⟩ := Posed.setX hso hrm.ok hxm
        obtain ⟨-, hxl, -⟩ := buildInfo_spec hso hrm.ok h1
        rw [hrm.ok.aset.wf.length, hxl]
      exact (m5.2 j _ _ _ _ (List.getElem?_eq_getElem (by omega)) (List.getElem?_eq_getElem hj) h1 h2).1 h0
  · have hal : IsLimitedRecourse bm.aset bm.coefs bm.intercept x at' 1 bm.maxItems := by
      rw [hA, hw, hi, hn]; exact t4
    have hnn : ∀ v ∈ cst, 0 ≤ v := by
      intro v hv
      obtain ⟨j, hj, rfl⟩ := List.mem_iff_getElem.mp hv
      have hja : j < a0.length := by
        have e1 := t4.permitted.1
        have e2 := t5.1
        rw [t2] at n1
        obtain rfl := Option.some.inj n1
        omega
      obtain ⟨k1, k2⟩ := n7 j _ _ (List.getElem?_eq_getElem hja) (List.getElem?_eq_getElem hj)
      by_cases h : a0[j] = 0
      · exact (k1 h).ge
      · exact (k2 h).le
    have hne : cst ≠ [] := by
      have e1 := t4.permitted.1
      have e2 := t5.1
      have e3 := t4.min
      intro h
      rw [h] at e2
      have : at' = [] := List.eq_nil_of_length_eq_zero (by rw [e1, ← e2]; rfl)
      rw [this] at e3
      simp [numChanged] at e3
    have hal : IsLimitedRecourse bm.aset bm.coefs bm.intercept x at' 1 bm.maxItems := by
      rw [hA, hw, hi, hn]; exact t4
    obtain ⟨M', hM', hle⟩ : ∃ M' ∈ cst, ∀ v ∈ cst, v ≤ M' :=
      ⟨npMax cst, npMax_mem hne, fun v hv => le_npMax hv⟩
    have hMs : M' ≤ ct := by rw [t7]; exact List.single_le_sum hnn _ hM'
    obtain ⟨k1, k2⟩ := m8 at' cst M' hal
      (by rw [hcm, hA]; exact actionCosts_total_max.mp (by rw [← hct]; exact t5)) hM' hle
    exact ⟨fun γ hγ => lt_of_lt_of_le (k1 γ hγ) (by linarith), fun γ hγ hs => le_trans (k2 γ hγ hs) hMs⟩

/-- Two builders made in the same way, but for the cost type. -/
theorem exBuilderE_twins {be : Backend} {ct cm : CostType} {X : List (List ℚ)} {names : List String}
    {prep : ActionSet ℚ → Except Err (ActionSet ℚ)} {w : List ℚ} {t : ℚ} {bt bm : Builder ℚ}
    (h : exBuilderE be ct X names prep w t = .ok bt) (h' : exBuilderE be cm X names prep w t = .ok bm) :
    bt.costType = ct ∧ bm.costType = cm ∧ bm.aset = bt.aset ∧ bm.coefs = bt.coefs ∧ bm.intercept = bt.intercept ∧
      bm.maxItems = bt.maxItems := by
  unfold exBuilderE at h h'
  simp only [bind_ok_iff] at h h'
  obtain ⟨A, hA, A', hA', h⟩ := h
  obtain ⟨B, hB, B', hB', h'⟩ := h'
  rw [hA] at hB; cases hB
  rw [hA'] at hB'; cases hB'
  unfold mkBuilder at h h'
  obtain ⟨-, -, h⟩ := bind_ok_iff.mp h
  obtain ⟨-, -, h'⟩ := bind_ok_iff.mp h'
  dsimp only at h h'
  by_cases hk : A'.alignmentKnown = true
  · rw [if_pos hk] at h h'
    cases h; cases h'
    exact ⟨rfl, rfl, rfl, rfl, rfl, rfl⟩
  rw [if_neg hk] at h h'
  obtain ⟨A1, e1, h⟩ := bind_ok_iff.mp h
  obtain ⟨A2, e2, h'⟩ := bind_ok_iff.mp h'
  rw [e1] at e2; cases e2
  cases h; cases h'
  exact ⟨rfl, rfl, rfl, rfl, rfl, rfl⟩

/-- Non-vacuity of C116: two features with the grid 0, 1, 2.  For type `total` every way to gain two steps costs the same, for
type `max` one step of each is best: the maximal cost is half of the total cost, and there are two changes. -/
theorem C116_example (be : Backend) : ∃ bt bm bt1 bm1 : Builder ℚ, bt.Reachable exExt ∧ bm.Reachable exExt ∧
    bt.costType = .total ∧ bm.costType = .max ∧ bm.aset = bt.aset ∧ bm.coefs = bt.coefs ∧ bm.intercept = bt.intercept ∧
    bm.maxItems = bt.maxItems ∧ bm.minItems ≤ 1 ∧ Regular exExt bt [0, 0] ∧ Denied bt [0, 0] ∧
    bt.setX exExt [0, 0] = (bt1, .ok ()) ∧ bm.setX exExt [0, 0] = (bm1, .ok ()) ∧
    ∀ ot om : Oracle ℚ, ot.Exact → om.Exact → ∃ bt' bm' it im, bt1.fit ot = .ok (bt', it) ∧ bm1.fit om = .ok (bm', im) ∧
      it.feasible = true ∧ im.feasible = true ∧ im.actions = some [1, 1] ∧
      it.cost = .fin (1000000 / 1500001) ∧ im.cost = .fin (500000 / 1500001) := by
  have keyT : ∀ be, ∃ bt : Builder ℚ,
      exBuilderE be .total [[0, 0], [2, 2], [1, 1]] ["a", "b"] .ok [1, 1] (-2) = .ok bt ∧
      regularB exExt bt [0, 0] = true ∧ Denied bt [0, 0] ∧ (bt.setX exExt [0, 0]).2 = .ok () ∧
      admitted (bt.buildArgs [0, 0] (bt.setX exExt [0, 0]).1.feats) (fun _ => true) ≠ [] ∧
      (∀ κ ∈ optChoices (bt.buildArgs [0, 0] (bt.setX exExt [0, 0]).1.feats) (fun _ => true),
        choiceSum (bt.setX exExt [0, 0]).1.feats κ = 1000000 / 1500001) := by
    intro be; cases be <;> decide +kernel
  have keyM : ∀ be, ∃ bm : Builder ℚ,
      exBuilderE be .max [[0, 0], [2, 2], [1, 1]] ["a", "b"] .ok [1, 1] (-2) = .ok bm ∧
      bm.minItems ≤ 1 ∧ (bm.setX exExt [0, 0]).2 = .ok () ∧
      admitted (bm.buildArgs [0, 0] (bm.setX exExt [0, 0]).1.feats) (fun _ => true) ≠ [] ∧
      (∀ κ ∈ optChoices (bm.buildArgs [0, 0] (bm.setX exExt [0, 0]).1.feats) (fun _ => true),
        actVec bm.coefs.length (bm.setX exExt [0, 0]).1.feats κ = [1, 1] ∧
        choiceMax (bm.setX exExt [0, 0]).1.feats κ = 500000 / 1500001) := by
    intro be; cases be <;> decide +kernel
  obtain ⟨bt, h1, h10, h11, h12, h14, h15⟩ := keyT be
  obtain ⟨bm, h2, h9, h13, h16, h17⟩ := keyM be
  obtain ⟨h3, h4, h5, h6, h7, h8⟩ := exBuilderE_twins h1 h2
  have hrt : bt.Reachable exExt := exBuilderE_reachable h1 fun A A' => prep_ok
  have hrm : bm.Reachable exExt := exBuilderE_reachable h2 fun A A' => prep_ok
  obtain ⟨bt1, hst⟩ : ∃ b1, bt.setX exExt [0, 0] = (b1, .ok ()) := ⟨_, Prod.ext rfl h12⟩
  obtain ⟨bm1, hsm⟩ : ∃ b1, bm.setX exExt [0, 0] = (b1, .ok ()) := ⟨_, Prod.ext rfl h13⟩
  refine ⟨bt, bm, bt1, bm1, hrt, hrm, h3, h4, h5, h6, h7, h8, h9, regular_of_b hrt.ok exExt_pos h10, h11, hst, hsm,
    fun ot om hot hom => ?_⟩
  obtain ⟨bt1', feats, g1, -, g2, bt', it, g3, g4⟩ := exSolve exExt_order hrt h12 hot
  rw [hst] at g1; cases g1
  obtain ⟨bm1', featm, k1, -, k2, bm', im, k3, k4⟩ := exSolve exExt_order hrm h13 hom
  rw [hsm] at k1; cases k1
  rw [g2] at h14 h15
  rw [k2] at h16 h17
  rcases g4 with ⟨h, -⟩ | ⟨κ, hκ, -, gf, -, -, gc, -⟩
  · exact absurd h h14
  rcases k4 with ⟨h, -⟩ | ⟨κ', hκ', -, kf, ka, -, kc, -⟩
  · exact absurd h h16
  obtain ⟨e1, e2⟩ := h17 κ' hκ'
  have e3 := h15 κ hκ
  refine ⟨bt', bm', it, im, g3, k3, gf, kf, ?_, ?_, ?_⟩
  · rw [ka]; exact congrArg some e1
  · rw [gc]; simp [h3, e3]
  · rw [kc]; simp [h4, e2]

end Recourse
