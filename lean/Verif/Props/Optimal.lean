import Verif.Lemmas.Exchange
import Verif.Lemmas.Regular
import Verif.Props.Fit

/-!
# Optimality of `fit` (C25, C26, C27, C29)
-/

set_option linter.unusedSectionVars false

namespace Recourse

variable {K : Type} [Field K] [LinearOrder K] [IsStrictOrderedRing K] [FloorRing K]

variable {ext : Ext K} {o : Oracle K} {b0 b1 b b' : Builder K} {x : List K} {i : Info K}

theorem Posed.refitted {n : ℕ} {be : Backend} {p : BuildArgs K} {P : (ℕ → ℕ) → Prop}
    (h : Posed n be p P b) (ha : b.Refitted o b') : Posed n be p P b' := by
  induction ha with
  | refl => exact h
  | fit hr hf ih =>
    obtain ⟨-, rfl, -⟩ := fit_ok hf
    exact ih.solve o
  | user A hr ih => exact ⟨ih.mip, ih.feats, ih.ct, ih.len, ih.backend⟩

/-- A refit is a special case of what can happen while the point stays. -/
theorem Builder.Refitted.after (h : b0.Refitted o b) : b0.After o b := by
  induction h with
  | refl => exact .refl
  | fit _ hf ih => exact .fit ih hf
  | user A _ ih => exact .user A ih

/-! ## C25 -/

/-- Permitted changes only touch actionable features. -/
theorem numChanged_le_actionable {A : ActionSet K} {a : List K} (hl : A.elems.length = x.length)
    (hp : PermittedAction A x a) : numChanged a ≤ numActionable A := by
  obtain ⟨hal, hp⟩ := hp
  unfold numChanged numActionable
  have key : ∀ (es : List (Elem K)) (xs as : List K), es.length = xs.length → as.length = xs.length →
      (∀ (j : ℕ) (e : Elem K) (xj aj : K), es[j]? = some e → xs[j]? = some xj → as[j]? = some aj →
        Permitted e xj (xj + aj)) →
      (as.countP fun v => decide (v ≠ 0)) ≤ es.countP fun e => e.actionable := by
    intro es
    induction es with
    | nil =>
      intro xs as h1 h2 _
      have : as = [] := List.length_eq_zero_iff.mp (h2.trans h1.symm)
      rw [this]; simp
    | cons e es ih =>
      intro xs as h1 h2 h3
      cases xs with
      | nil => simp at h1
      | cons u xs =>
        cases as with
        | nil => simp at h2
        | cons v as =>
          have := ih xs as (by simpa using h1) (by simpa using h2) fun j => h3 (j + 1)
          have h0 := h3 0 e u v rfl rfl rfl
          rw [List.countP_cons, List.countP_cons]
          by_cases hv : v = 0
          · rw [if_neg (by simp [hv])]
            split_ifs <;> omega
          · rcases h0 with h0 | ⟨h0, -⟩
            · exact absurd (by simpa using h0) hv
            · rw [if_pos h0]; split_ifs <;> omega
  exact key _ _ _ hl hal hp

/-- Whoever is denied has to change something. -/
theorem numChanged_pos (hy : b.aset.yDesired = 1 ∨ b.aset.yDesired = -1) (hden : Denied b x) {a : List K}
    (hal : a.length = x.length) (hs : ReachesScore b.aset.yDesired b.coefs b.intercept x a) :
    1 ≤ numChanged a := by
  by_contra hlt
  have h0 : numChanged a = 0 := by omega
  unfold numChanged at h0
  rw [List.countP_eq_zero] at h0
  have hz : a = List.replicate x.length 0 := by
    rw [List.eq_replicate_iff]
    exact ⟨hal, fun v hv => by simpa using h0 v hv⟩
  unfold ReachesScore at hs
  rw [reaches_iff hy, dot_vadd _ _ _ hal.symm] at hs
  have hd : ∀ (w : List K) (n : ℕ), dot w (List.replicate n 0) = 0 := by
    intro w
    induction w with
    | nil => intro n; simp [dot]
    | cons c w ih =>
      intro n
      cases n with
      | zero => simp [dot]
      | succ n => have := ih n; unfold dot at this ⊢; simp [List.replicate_succ, this]
  rw [hz, hd, add_zero] at hs
  exact absurd hden (not_lt.mpr hs)

/-- **C25.**  In regular situations (see `Regular`) and for a denied point, an exact solver reports
`feasible = False` exactly when no combination of permitted changes of at most `max_items` features (any
grid value allowed by the step directions, also against the flip direction) reaches the desired side of
the score and respects the subset limits.  With the default `max_items` (not below the number of actionable features): exactly when no
permitted combination at all does. -/
theorem C25_no_recourse (hso : SetOrderOk ext) (hlog : LogOk ext) (ho : o.Exact) (hr : b0.Reachable ext)
    (hreg : Regular ext b0 x) (hden : Denied b0 x) (hx : b0.setX ext x = (b1, .ok ()))
    (ha : b1.Refitted o b) (hf : b.fit o = .ok (b', i)) :
    (i.feasible = false ↔ ¬ ∃ a, IsLimitedRecourse b0.aset b0.coefs b0.intercept x a 1 b0.maxItems) ∧
    (numActionable b0.aset ≤ b0.maxItems → (i.feasible = false ↔
      ¬ ∃ a, PermittedAction b0.aset x a ∧ RespectsLimits b0.aset x a ∧
        ReachesScore b0.aset.yDesired b0.coefs b0.intercept x a)) := by
  have main : i.feasible = false ↔ ¬ ∃ a, IsLimitedRecourse b0.aset b0.coefs b0.intercept x a 1 b0.maxItems := by
    constructor
    · rintro hi ⟨a, har⟩
      obtain ⟨feats, h1, h2, h3⟩ := Posed.setX hso hr.ok hx
      obtain ⟨κ, hκ, -⟩ := exchange hso hr.ok hlog h1 hreg hden har
      obtain ⟨-, -, rfl⟩ := fit_ok hf
      rcases (h3.refitted ha).solved h2 ho.1 with ⟨-, -, hn⟩ | ⟨σ, κ', -, -, -, -, hrep, -⟩
      · exact hn ho.2 ⟨κ, hκ, trivial⟩
      · rw [hrep.feasible] at hi; cases hi
    · intro hno
      cases hi : i.feasible with
      | false => rfl
      | true =>
        exfalso
        obtain ⟨feats, h1, h2, h3⟩ := Posed.setX hso hr.ok hx
        obtain ⟨-, -, rfl⟩ := fit_ok hf
        rcases (h3.refitted ha).solved h2 ho.1 with ⟨-, he, -⟩ | ⟨σ, κ, -, -, hk, -, -, -⟩
        · rw [he] at hi; cases hi
        · exact hno ⟨_, choice_limited hso hr.ok h1 hreg hk⟩
  refine ⟨main, fun hm => main.trans (not_congr ?_)⟩
  constructor
  · rintro ⟨a, h⟩; exact ⟨a, h.permitted, h.limits, h.score⟩
  · rintro ⟨a, hp, hl, hs⟩
    refine ⟨a, ⟨hp, numChanged_pos hr.ok.aset.wf.y hden hp.1 hs, ?_, hs⟩, hl⟩
    refine le_trans (numChanged_le_actionable ?_ hp) hm
    have hxl := (setX_ok hx)
    obtain ⟨feats, h1, -⟩ := Posed.setX hso hr.ok hx
    obtain ⟨-, hxl, -⟩ := buildInfo_spec hso hr.ok h1
    rw [hr.ok.aset.wf.length, hxl]

/-- Non-vacuity of C25 and C26: two binary features, both cost types, both back ends; with intercept -1
recourse exists, with intercept -4 it does not. -/
theorem C25_example (be : Backend) (ct : CostType) (t : ℚ) (ht : t = -1 ∨ t = -4) : ∃ b0 b1 : Builder ℚ,
    b0.Reachable exExt ∧ b0.costType = ct ∧ Regular exExt b0 [0, 0] ∧ Denied b0 [0, 0] ∧
    b0.setX exExt [0, 0] = (b1, .ok ()) ∧ ∀ o : Oracle ℚ, o.Exact → ∃ b' i, b1.fit o = .ok (b', i) ∧
      i.feasible = decide (t = -1) := by
  have key : ∀ be ct, ∀ t ∈ [(-1 : ℚ), -4], ∃ b0 : Builder ℚ,
      exBuilderE be ct [[0, 0], [1, 1]] ["a", "b"] .ok [1, 2] t = .ok b0 ∧ b0.costType = ct ∧
      regularB exExt b0 [0, 0] = true ∧ Denied b0 [0, 0] ∧ (b0.setX exExt [0, 0]).2 = .ok () ∧
      (admitted (b0.buildArgs [0, 0] (b0.setX exExt [0, 0]).1.feats) (fun _ => true) = [] ↔ t ≠ -1) := by
    intro be ct; cases be <;> cases ct <;> decide +kernel
  obtain ⟨b0, h1, h2, h3, h4, h5, h6⟩ := key be ct t (by simpa using ht)
  have hr : b0.Reachable exExt := exBuilderE_reachable h1 fun A A' => prep_ok
  obtain ⟨b1, hs⟩ : ∃ b1, b0.setX exExt [0, 0] = (b1, .ok ()) := ⟨_, Prod.ext rfl h5⟩
  refine ⟨b0, b1, hr, h2, regular_of_b hr.ok exExt_pos h3, h4, hs, fun o ho => ?_⟩
  obtain ⟨b1', feats, g1, -, g2, b', i, g3, g4⟩ := exSolve exExt_order hr h5 ho
  rw [hs] at g1; cases g1
  refine ⟨b', i, g3, ?_⟩
  rw [g2] at h6
  rcases g4 with ⟨h, rfl⟩ | ⟨κ, hκ, -, hf, -⟩
  · rw [decide_eq_false (h6.mp h)]; rfl
  · rw [hf, eq_comm, decide_eq_true_eq]
    by_contra hne
    have := h6.mpr hne
    unfold optChoices at hκ
    rw [this] at hκ
    simp at hκ

/-! ## C26 -/

/-- **C26.**  In regular situations, for a denied point, cost type `total` or `local` and an exact solver:
the reported cost of a feasible answer is the sum of the costs of the returned changes, and no permitted
recourse (changing at most `max_items` features and respecting the subset limits) has a smaller sum of costs. -/
theorem C26_sum_minimal (hso : SetOrderOk ext) (hlog : LogOk ext) (ho : o.Exact) (hr : b0.Reachable ext)
    (hreg : Regular ext b0 x) (hden : Denied b0 x) (hct : b0.costType ≠ .max)
    (hx : b0.setX ext x = (b1, .ok ())) (ha : b1.Refitted o b) (hf : b.fit o = .ok (b', i))
    (hi : i.feasible = true) : ∃ c a cs, i.cost = .fin c ∧ i.actions = some a ∧ i.costs = some cs ∧
    IsLimitedRecourse b0.aset b0.coefs b0.intercept x a 1 b0.maxItems ∧
    ActionCosts ext b0.costType b0.aset x a cs ∧ c = cs.sum ∧
    ∀ a' cs', IsLimitedRecourse b0.aset b0.coefs b0.intercept x a' 1 b0.maxItems →
      ActionCosts ext b0.costType b0.aset x a' cs' → c ≤ cs'.sum := by
  obtain ⟨feats, h1, h2, h3⟩ := Posed.setX hso hr.ok hx
  have hrec := C22_actionable hso ho.1 hr hx ha.after hf hi
  obtain ⟨-, -, rfl⟩ := fit_ok hf
  rcases (h3.refitted ha).solved h2 ho.1 with ⟨-, he, -⟩ | ⟨σ, κ, -, -, hk, -, hrep, hbest⟩
  · rw [he] at hi; cases hi
  have hbest := hbest ho.2
  have hct' : (b0.buildArgs x feats).costType ≠ .max := hct
  have hc := hbest.cost
  rw [if_neg hct'] at hc
  obtain ⟨a, hact, har⟩ := hrec
  have hae : a = actVec b0.coefs.length feats κ := by
    have h := hrep.actions
    rw [hact] at h; exact Option.some.inj h
  refine ⟨_, a, _, hc, hact, hrep.costs, by rw [hae]; exact choice_limited hso hr.ok h1 hreg hk,
    ?_, (cstVec_sum h2).symm, ?_⟩
  · rw [hae]
    exact regular_actionCosts hso hr.ok hlog h1 hreg hk.lt
  · intro a' cs' har' hcs'
    obtain ⟨κ', hκ', -, hle⟩ := exchange hso hr.ok hlog h1 hreg hden har'
    have hl := hbest.least κ' hκ' trivial
    have hobj : ∀ κ'', choiceObj (b0.buildArgs x feats).costType (b0.buildArgs x feats).feats κ''
        = choiceSum feats κ'' := by
      intro κ''
      change choiceObj b0.costType feats κ'' = _
      unfold choiceObj
      revert hct
      cases b0.costType with
      | max => intro h; exact absurd rfl h
      | total => intro _; rfl
      | loc => intro _; rfl
    rw [hobj, hobj] at hl
    refine le_trans hl ?_
    rw [← cstVec_sum h2 (κ := κ')]
    apply pointwise_sum_le
    · obtain ⟨-, hxl, -, -⟩ := buildInfo_spec hso hr.ok h1
      rw [cstVec_length, hcs'.1, hxl, hr.ok.coefs]
    · exact hle cs' hcs'

/-! ## C27 -/

theorem mem_npDiff : ∀ {l : List K} {i : ℕ} (h : i + 1 < l.length), l[i + 1] - l[i] ∈ npDiff l
  | [], _, h => by simp at h
  | [_], _, h => by simp at h
  | a :: c :: t, 0, _ => by simp [npDiff]
  | a :: c :: t, i + 1, h => by
    have := mem_npDiff (l := c :: t) (i := i) (by simpa using h)
    simp only [npDiff, List.mem_cons]
    right
    simpa using this

theorem npDiff_pos : ∀ {l : List K}, l.Pairwise (· < ·) → ∀ d ∈ npDiff l, 0 < d
  | [], _, d, hd => by simp [npDiff] at hd
  | [_], _, d, hd => by simp [npDiff] at hd
  | a :: c :: t, hp, d, hd => by
    simp only [npDiff, List.mem_cons] at hd
    rcases hd with rfl | hd
    · exact sub_pos.mpr ((List.pairwise_cons.mp hp).1 c List.mem_cons_self)
    · exact npDiff_pos (List.pairwise_cons.mp hp).2 d hd

theorem gap_le {l : List K} (hp : l.Pairwise (· < ·)) {i k : ℕ} (hik : i < k) (hk : k < l.length) :
    npMin (npDiff l) ≤ l[k] - l[i] := by
  have h1 : npMin (npDiff l) ≤ l[i + 1] - l[i] := npMin_le (mem_npDiff (by omega))
  have h2 : l[i + 1] ≤ l[k] := by
    rcases Nat.lt_or_ge (i + 1) k with h | h
    · exact (List.pairwise_iff_getElem.mp hp (i + 1) k (by omega) hk h).le
    · have : i + 1 = k := by omega
      subst this; exact le_refl _
  linarith

theorem npDiff_ne_nil {l : List K} (h : 2 ≤ l.length) : npDiff l ≠ [] := by
  match l, h with
  | a :: c :: t, _ => simp [npDiff]

/-- When grids and percentiles are in order, the costs of a usable feature increase along its actions. -/
theorem FeatSpec.costs_sorted {f : Feat K} {e : Elem K} {xj : K} {t : Table K} {T : List K}
    (hb : BuilderOK ext b) (h : FeatSpec ext b x f e xj t T) (hreg : Placed ext b x)
    (hct : b.costType ≠ .loc) : f.costs.Pairwise (· < ·) := by
  rw [h.costs, List.pairwise_cons]
  have hT : ∀ v ∈ T, e.actionable = true ∧ v ∈ e.grid.vals := by
    intro v hv
    obtain ⟨h1, h2, -⟩ := (h.mem_T hb v).mp hv
    rcases h2 with h2 | ⟨h2, h3, -⟩
    · exact absurd h2 h1
    · exact ⟨h2, h3⟩
  constructor
  · intro c hc
    obtain ⟨v, hv, rfl⟩ := List.mem_map.mp hc
    have := (List.mem_filter.mp hv).2
    exact (isBug_false ((Bool.not_eq_true' _).mp this)).1
  · rw [List.pairwise_map]
    apply List.Pairwise.sublist List.filter_sublist
    have hp := h.feasX_nodup hb
    have ho := h.order
    change (buildOrder (e.feasX xj (dropOf b f)) xj).2 = xj :: T at ho
    unfold buildOrder at ho ⊢
    by_cases hc : isClose ((e.feasX xj (dropOf b f)).getLastD 0 - xj) 0 = true
    · rw [if_pos hc] at ho ⊢
      have hpw : (xj :: T).Pairwise (fun a c => c < a) := by
        rw [← ho, List.pairwise_reverse]; exact hp
      have hpw := (List.pairwise_cons.mp hpw).2
      refine List.Pairwise.imp_of_mem ?_ hpw
      intro u v hu hv huv
      unfold stepCost
      simp only [if_neg hct, Bool.false_eq_true, if_false]
      have := hreg.pct f.idx e xj v u _ _ h.elem h.val (hT u hu).1 (Or.inr (hT v hv).2) (Or.inr (hT u hu).2) huv
        (h.percentile v) (h.percentile u)
      linarith
    · rw [if_neg hc] at ho ⊢
      have ho : e.feasX xj (dropOf b f) = xj :: T := ho
      rw [ho] at hp
      have hpw := (List.pairwise_cons.mp hp).2
      refine List.Pairwise.imp_of_mem ?_ hpw
      intro u v hu hv huv
      unfold stepCost
      simp only [if_neg hct, if_true]
      have := hreg.pct f.idx e xj u v _ _ h.elem h.val (hT u hu).1 (Or.inr (hT u hu).2) (Or.inr (hT v hv).2) huv
        (h.percentile u) (h.percentile v)
      linarith

/-- Every step of offered costs is at least the smallest gap used for `epsilon`. -/
theorem gap_le_offeredStep (hso : SetOrderOk ext) (hlog : LogOk ext) (hb : BuilderOK ext b)
    {feats : List (Feat K)} (h : b.buildInfo ext x = .ok feats) (hreg : Placed ext b x)
    (hct : b.costType ≠ .loc) {γ : K} (hγ : OfferedStep ext b x γ) :
    npMin (feats.map fun f => npMin (npDiff f.costs)) ≤ γ := by
  obtain ⟨j, n, e, xj, u, v, g, g', hn, he, hx, hvne, hu, hv, hg, hg', hlt, rfl⟩ := hγ
  obtain ⟨-, hxl, hspec, hcov⟩ := buildInfo_spec hso hb h
  have hwf := hb.aset.wf
  have side : ∀ z, OfferedValue b.aset j n e xj z → z ≠ xj →
      e.actionable = true ∧ z ∈ e.grid.vals ∧ (e.compatible ≠ some false ∨ n ∈ b.aset.cons.flatNames) ∧
      KeepFlip e (decide (n ∉ b.aset.cons.flatNames)) xj z := by
    rintro z ⟨hz, hc, hk⟩ hne
    rcases id hz with h0 | ⟨h1, h2, -⟩
    · exact absurd h0 hne
    exact ⟨h1, h2, hc.imp (fun hc => hc e he) listed_iff.mpr,
      fun hd d hdm => hk (not_listed_iff.mp (of_decide_eq_true hd)) d hdm⟩
  obtain ⟨v1, v2, v4, v5⟩ := side v hv hvne
  have hfit := hreg.fits j e xj he hx
  obtain ⟨f, hf, -, rfl⟩ := hcov j n e xj hn he hx v4 (by
    exact two_le_of_mem ((mem_feasX hfit).mpr ⟨hv.1, v5⟩) ((mem_feasX hfit).mpr
      ⟨Or.inl rfl, fun _ _ _ => ⟨fun _ => le_refl _, fun _ => le_refl _⟩⟩) hvne)
  obtain ⟨e', xj', t, T, hs⟩ := hspec f hf
  have q1 := hs.elem; rw [he] at q1; obtain rfl := Option.some.inj q1
  have q2 := hs.val; rw [hx] at q2; obtain rfl := Option.some.inj q2
  have hok := buildInfo_ok hso hb h
  have q3 := hs.name; rw [hn] at q3; obtain rfl := Option.some.inj q3
  have hdrop : dropOf b f = decide (f.name ∉ b.aset.cons.flatNames) := rfl
  -- positions of useful values
  have pos : ∀ z c, z ≠ xj →
      OfferedValue b.aset f.idx f.name e xj z → MoveCost ext b.costType e xj z c → ∃ k, k < f.costs.length ∧ f.costs.getD k 0 = c := by
    intro z c z3 hpos hc
    obtain ⟨z1, z2, z4, z5⟩ := side z hpos z3
    have hz := hpos.1
    have hT : z ∈ T := (hs.mem_T hb _).mpr ⟨z3, hz, by rw [hdrop]; exact z5⟩
    have hpct := hreg.pct_move hs.elem hs.val z1 z2 (hs.percentile _) (hs.percentile _)
    have hcp := hs.cost_pos hb hlog hT hpct
    have hbug : isBug (z - xj) (fCost ext b f e xj t z) = false := by
      unfold isBug
      rw [isClose_zero.mpr (hreg.apart f.idx e xj z hs.elem hs.val z1 z2 z3),
        decide_eq_false (not_le.mpr hcp)]
      rfl
    obtain ⟨k, -, k2, -, k4⟩ := hs.position hb z3 hz (by rw [hdrop]; exact z5) hbug
    refine ⟨k, by rw [← hok.len f hf]; exact k2, ?_⟩
    obtain ⟨p, q, hp, hq, rfl⟩ := hc
    rw [hs.percentile] at hp hq
    cases hp; cases hq
    rw [k4]
    exact stepCost_moveCost hlog hpct.2.2 hcp
  obtain ⟨kv, kv1, kv2⟩ := pos v g' hvne hv hg'
  have hu' : ∃ k, k < f.costs.length ∧ f.costs.getD k 0 = g := by
    rcases eq_or_ne u xj with rfl | hune
    · refine ⟨0, by omega, ?_⟩
      have : f.costs.getD 0 0 = 0 := by rw [hs.costs]; rfl
      rw [this]
      obtain ⟨p, q, hp, hq, rfl⟩ := hg
      rw [hp] at hq; cases hq
      rw [if_neg hct, sub_self, abs_zero]
    · exact pos u g hune (hu.resolve_left hune) hg
  obtain ⟨ku, ku1, ku2⟩ := hu'
  have hsorted := hs.costs_sorted hb hreg hct
  rw [List.getD_eq_getElem _ _ kv1] at kv2
  rw [List.getD_eq_getElem _ _ ku1] at ku2
  have hkk : ku < kv := by
    by_contra hge
    push Not at hge
    have : f.costs[kv] ≤ f.costs[ku] := by
      rcases Nat.lt_or_ge kv ku with h | h
      · exact (List.pairwise_iff_getElem.mp hsorted kv ku kv1 ku1 h).le
      · have : kv = ku := by omega
        subst this; exact le_refl _
    rw [kv2, ku2] at this
    exact absurd hlt (not_lt.mpr this)
  refine le_trans (npMin_le (List.mem_map_of_mem (f := fun f => npMin (npDiff f.costs)) hf)) ?_
  rw [← kv2, ← ku2]
  exact gap_le hsorted hkk kv1

/-- In regular situations cost steps are steps of offered costs. -/
theorem CostStep.offered (hb : BuilderOK ext b) (hreg : Regular ext b x) {γ : K} (hγ : CostStep ext b x γ) :
    OfferedStep ext b x γ := by
  obtain ⟨j, n, e, xj, w, u, v, g, g', hn, he, hx, hw, hpu, hpv, hvne, hu, hv, hg, hg', hlt, rfl⟩ := hγ
  have hwf := hb.aset.wf
  have hfl := hreg.aligned j e w he hw
  have hy := hwf.y
  have side : ∀ z, Permitted e xj z → (Listed b.aset n ∨ 0 < (b.aset.yDesired : K) * (w * (z - xj))) →
      OfferedValue b.aset j n e xj z := by
    intro z hz hpos
    obtain ⟨-, -, c3, -⟩ := C11_compatible (hwf.elems e (List.mem_of_getElem? he)) hy hfl
    rcases hpos with hl | hpos
    · exact ⟨hz, Or.inr hl, fun hn => absurd hl hn⟩
    refine ⟨hz, Or.inl fun e' he' hc => ?_, ?_⟩
    · rw [he] at he'; obtain rfl := Option.some.inj he'
      exact absurd hpos (not_lt.mpr (c3 hc xj z hz))
    intro _ d hd
    rw [hfl] at hd
    obtain rfl := Option.some.inj hd
    exact keep_of_useful hy hpos
  exact ⟨j, n, e, xj, u, v, g, g', hn, he, hx, hvne, hu.imp_right (side u hpu), side v hpv hv, hg, hg', hlt, rfl⟩

/-- The core of C27: bounds for a choice whose objective is not larger than that of another one. -/
theorem max_core_any {feats : List (Feat K)} {κ κ' : ℕ → ℕ} (hso : SetOrderOk ext) (hlog : LogOk ext)
    (hb : BuilderOK ext b) (h1 : b.buildInfo ext x = .ok feats) (hreg : Placed ext b x)
    (hct : b.costType = .max) (hk : ChoiceOK (b.buildArgs x feats) κ) (hκ' : ChoiceOK (b.buildArgs x feats) κ')
    (hl : choiceObj (b.buildArgs x feats).costType (b.buildArgs x feats).feats κ
      ≤ choiceObj (b.buildArgs x feats).costType (b.buildArgs x feats).feats κ') {a' cs' : List K} {M' : K}
    (har' : PermittedAction b.aset x a')
    (hcs' : ActionCosts ext b.costType b.aset x a' cs') (hM : M' ∈ cs') (hM' : ∀ v ∈ cs', v ≤ M')
    (hle : ∀ (j : ℕ) (u c : K), (cstVec b.coefs.length feats κ')[j]? = some u → cs'[j]? = some c → u ≤ c) :
    (∀ γ, OfferedStep ext b x γ → choiceMax feats κ < M' + γ) ∧
    (∀ γ, OfferedStep ext b x γ → (∀ g g', SomeMoveCost ext b x g → SomeMoveCost ext b x g' → g < g' →
      γ ≤ g' - g) → choiceMax feats κ ≤ M') := by
  have hne : b.costType ≠ .loc := by rw [hct]; decide
  have h2 := buildInfo_ok hso hb h1
  have har : PermittedAction b.aset x (actVec b.coefs.length feats κ) := (choice_isRecourse hso hb h1 hk).permitted
  have hac := placed_actionCosts hso hb hlog h1 hreg hk.lt
  obtain ⟨c, hce⟩ : ∃ c, c = choiceMax feats κ := ⟨_, rfl⟩
  rw [← hce]
  obtain ⟨-, hxl, hspec, -⟩ := buildInfo_spec hso hb h1
  have hlen : cs'.length = b.coefs.length := by rw [hcs'.1, hxl, hb.coefs]
  have hobj : ∀ κ'', choiceObj (b.buildArgs x feats).costType (b.buildArgs x feats).feats κ''
      = choiceMax feats κ'' + epsilon feats * choiceSum feats κ'' := by
    intro κ''
    change choiceObj b.costType feats κ'' = _
    rw [hct]; rfl
  rw [hobj, hobj] at hl
  -- a changed feature
  have hsz : 1 ≤ choiceSize feats κ := le_trans (le_max_right _ _) hk.lo
  obtain ⟨f, hfm, hfc⟩ : ∃ f ∈ feats, κ f.idx ≠ 0 := by
    unfold choiceSize at hsz
    have := List.countP_pos_iff.mp hsz
    simpa using this
  have hfpos := (h2.cst_pos hfm hk.lt).2 hfc
  have hcst : ∀ g ∈ feats, g.cst κ' ≤ M' := by
    intro g hg
    have hlt : g.idx < cs'.length := by rw [hlen]; exact h2.lt g hg
    have e1 := put_feat h2 (fun f => f.cst κ') hg
    exact le_trans (hle g.idx _ _ e1 (List.getElem?_eq_getElem hlt)) (hM' _ (List.getElem_mem hlt))
  have hnn : ∀ (κ : ℕ → ℕ), Choice feats κ → ∀ g ∈ feats, 0 ≤ g.cst κ :=
    fun κ hκ g hg => h2.cst_nonneg hκ hg
  have hmax' : choiceMax feats κ' ≤ M' :=
    choiceMax_le (le_trans (hnn κ' hκ'.lt f hfm) (hcst f hfm)) hcst
  have hs0 : 0 < choiceSum feats κ := by
    refine lt_of_lt_of_le hfpos ?_
    unfold choiceSum
    refine List.single_le_sum ?_ _ (List.mem_map_of_mem hfm)
    intro v hv
    obtain ⟨g, hg, rfl⟩ := List.mem_map.mp hv
    exact hnn κ hk.lt g hg
  -- epsilon
  have hne0 : feats ≠ [] := List.ne_nil_of_mem hfm
  set δ := npMin (feats.map fun f => npMin (npDiff f.costs)) with hδ
  set S := (feats.map fun f => npMax f.costs).sum with hS
  have heps : epsilon feats = δ / S := by
    unfold epsilon
    rw [if_neg (by simpa using hne0)]
  have hδ0 : 0 < δ := by
    obtain ⟨g, hg, hge⟩ := List.mem_map.mp (npMin_mem (l := feats.map fun f => npMin (npDiff f.costs))
      (by simpa using hne0))
    rw [hδ, ← hge]
    obtain ⟨e, xj, t, T, hs⟩ := hspec g hg
    have hso' := hs.costs_sorted hb hreg hne
    exact npDiff_pos hso' _ (npMin_mem (npDiff_ne_nil (by rw [← h2.len g hg]; exact h2.two g hg)))
  have hle_max : ∀ (κ : ℕ → ℕ), Choice feats κ → ∀ g ∈ feats, g.cst κ ≤ npMax g.costs := by
    intro κ hκ g hg
    apply le_npMax
    unfold Feat.cst
    have : κ g.idx < g.costs.length := by rw [← h2.len g hg]; exact hκ g hg
    rw [List.getD_eq_getElem _ _ this]
    exact List.getElem_mem this
  have hsum_le : ∀ (κ : ℕ → ℕ), Choice feats κ → choiceSum feats κ ≤ S := by
    intro κ hκ
    unfold choiceSum
    rw [hS]
    exact List.sum_le_sum (hle_max κ hκ)
  have hS0 : 0 < S := lt_of_lt_of_le hs0 (hsum_le κ hk.lt)
  have heps0 : 0 < epsilon feats := by rw [heps]; exact div_pos hδ0 hS0
  have hlt : c < M' + δ := by
    have e1 : 0 < epsilon feats * choiceSum feats κ := mul_pos heps0 hs0
    have e2 : epsilon feats * choiceSum feats κ' ≤ δ := by
      calc epsilon feats * choiceSum feats κ' ≤ epsilon feats * S :=
            mul_le_mul_of_nonneg_left (hsum_le κ' hκ'.lt) heps0.le
        _ = δ := by rw [heps]; exact div_mul_cancel₀ _ hS0.ne'
    rw [hce]
    linarith
  have hstep : ∀ γ, OfferedStep ext b x γ → c < M' + γ := by
    intro γ hγ
    have := gap_le_offeredStep hso hlog hb h1 hreg hne hγ
    linarith
  refine ⟨hstep, fun γ hγ hsep => ?_⟩
  by_contra hgt
  push Not at hgt
  -- both costs are costs of moves
  have move : ∀ a cs c, PermittedAction b.aset x a →
      ActionCosts ext b.costType b.aset x a cs → c ∈ cs → c ≠ 0 → SomeMoveCost ext b x c := by
    intro a cs c har hac hc hc0
    obtain ⟨j, hj, rfl⟩ := List.mem_iff_getElem.mp hc
    have hjx : j < x.length := by rw [← hac.1]; exact hj
    have hja : j < a.length := by rw [har.1]; exact hjx
    have hje : j < b.aset.elems.length := by rw [hb.aset.wf.length, ← hxl]; exact hjx
    obtain ⟨c1, c2⟩ := hac.2 j _ _ _ _ (List.getElem?_eq_getElem hje) (List.getElem?_eq_getElem hjx)
      (List.getElem?_eq_getElem hja) (List.getElem?_eq_getElem hj)
    have hne : a[j] ≠ 0 := fun h => hc0 (c1 h)
    exact ⟨j, _, _, _, List.getElem?_eq_getElem hje, List.getElem?_eq_getElem hjx,
      har.2 j _ _ _ (List.getElem?_eq_getElem hje) (List.getElem?_eq_getElem hjx)
      (List.getElem?_eq_getElem hja), by simpa using hne, c2 hne⟩
  have hM0 : M' ≠ 0 := by
    -- some feature of the other recourse changes
    have hsz' : 1 ≤ choiceSize feats κ' := le_trans (le_max_right _ _) hκ'.lo
    obtain ⟨f', hfm', hfc'⟩ : ∃ f ∈ feats, κ' f.idx ≠ 0 := by
      unfold choiceSize at hsz'
      have := List.countP_pos_iff.mp hsz'
      simpa using this
    have := (h2.cst_pos hfm' hκ'.lt).2 hfc'
    have := hcst f' hfm'
    intro h0; rw [h0] at this; linarith
  have hc0 : c ≠ 0 := by
    have := (choiceMax_spec feats κ).2.1 f hfm
    rw [hce]; intro h0; rw [h0] at this; linarith
  have k6 : c ∈ cstVec b.coefs.length feats κ := by
    rcases (choiceMax_spec feats κ).2.2 with e | ⟨g, hg, e⟩
    · exact absurd (hce.trans e) hc0
    · rw [hce, e]; exact List.mem_of_getElem? (put_feat h2 (fun f => f.cst κ) hg)
  have := hsep M' c (move a' cs' M' har' hcs' hM hM0) (move _ _ c har hac k6 hc0) hgt
  have := hstep γ hγ
  linarith

/-- The core of C27 in regular situations. -/
theorem max_core {feats : List (Feat K)} {κ κ' : ℕ → ℕ} (hso : SetOrderOk ext) (hlog : LogOk ext)
    (hb : BuilderOK ext b) (h1 : b.buildInfo ext x = .ok feats) (hreg : Regular ext b x)
    (hct : b.costType = .max) (hk : ChoiceOK (b.buildArgs x feats) κ) (hκ' : ChoiceOK (b.buildArgs x feats) κ')
    (hl : choiceObj (b.buildArgs x feats).costType (b.buildArgs x feats).feats κ
      ≤ choiceObj (b.buildArgs x feats).costType (b.buildArgs x feats).feats κ') {a' cs' : List K} {M' : K}
    (har' : IsLimitedRecourse b.aset b.coefs b.intercept x a' 1 b.maxItems)
    (hcs' : ActionCosts ext b.costType b.aset x a' cs') (hM : M' ∈ cs') (hM' : ∀ v ∈ cs', v ≤ M')
    (hle : ∀ (j : ℕ) (u c : K), (cstVec b.coefs.length feats κ')[j]? = some u → cs'[j]? = some c → u ≤ c) :
    (∀ γ, CostStep ext b x γ → choiceMax feats κ < M' + γ) ∧
    (∀ γ, CostStep ext b x γ → (∀ g g', SomeMoveCost ext b x g → SomeMoveCost ext b x g' → g < g' →
      γ ≤ g' - g) → choiceMax feats κ ≤ M') := by
  obtain ⟨g1, g2⟩ := max_core_any hso hlog hb h1 hreg.situated.placed hct hk hκ' hl har'.permitted hcs' hM hM' hle
  exact ⟨fun γ hγ => g1 γ (hγ.offered hb hreg), fun γ hγ => g2 γ (hγ.offered hb hreg)⟩

/-- **C27** (partial).  In regular situations, for a denied point, cost type `max` and an exact solver, the
reported cost of a feasible answer is the largest cost of its changes; it exceeds the largest cost of any
other permitted recourse by less than every cost step; and it is the smallest possible maximum if distinct
costs differ by at least some cost step.  Missing from the full property: minimality without this
condition, which is false (`C27_max_refuted`). -/
theorem C27_max_partial (hso : SetOrderOk ext) (hlog : LogOk ext) (ho : o.Exact) (hr : b0.Reachable ext)
    (hreg : Regular ext b0 x) (hden : Denied b0 x) (hct : b0.costType = .max)
    (hx : b0.setX ext x = (b1, .ok ())) (ha : b1.Refitted o b) (hf : b.fit o = .ok (b', i))
    (hi : i.feasible = true) : ∃ c a cs, i.cost = .fin c ∧ i.actions = some a ∧ i.costs = some cs ∧
    IsLimitedRecourse b0.aset b0.coefs b0.intercept x a 1 b0.maxItems ∧
    ActionCosts ext b0.costType b0.aset x a cs ∧ c ∈ cs ∧ (∀ v ∈ cs, v ≤ c) ∧
    ∀ a' cs' M', IsLimitedRecourse b0.aset b0.coefs b0.intercept x a' 1 b0.maxItems →
      ActionCosts ext b0.costType b0.aset x a' cs' → M' ∈ cs' → (∀ v ∈ cs', v ≤ M') →
      (∀ γ, CostStep ext b0 x γ → c < M' + γ) ∧
      (∀ γ, CostStep ext b0 x γ → (∀ g g', SomeMoveCost ext b0 x g → SomeMoveCost ext b0 x g' → g < g' →
        γ ≤ g' - g) → c ≤ M') := by
  have hne : b0.costType ≠ .loc := by rw [hct]; decide
  obtain ⟨feats, h1, h2, h3⟩ := Posed.setX hso hr.ok hx
  obtain ⟨a, hact, har⟩ := C22_actionable hso ho.1 hr hx ha.after hf hi
  obtain ⟨a1, cs, c, k1, k2, k3, -, k5, k6, -⟩ := C28_costs hso hlog ho hr
    (fun h => absurd h hne) hx ha.after hf hi
  rw [hact] at k1; obtain rfl := Option.some.inj k1
  obtain ⟨k6, k7⟩ := k6 hct
  obtain ⟨-, -, rfl⟩ := fit_ok hf
  rcases (h3.refitted ha).solved h2 ho.1 with ⟨-, he, -⟩ | ⟨σ, κ, -, -, hk, -, hrep, hbest⟩
  · rw [he] at hi; cases hi
  have hbest := hbest ho.2
  have hae : a = actVec b0.coefs.length feats κ := by
    have h := hrep.actions
    rw [hact] at h; exact Option.some.inj h
  have hcse : cs = cstVec b0.coefs.length feats κ := by
    have h := hrep.costs
    rw [k2] at h; exact Option.some.inj h
  have hce : c = choiceMax feats κ := by
    have h := hbest.cost
    have hct' : (b0.buildArgs x feats).costType = .max := hct
    rw [if_pos hct', k3] at h
    exact XV.fin.inj h
  have hac : ActionCosts ext b0.costType b0.aset x a cs := by
    rw [hae, hcse]; exact regular_actionCosts hso hr.ok hlog h1 hreg hk.lt
  refine ⟨c, a, cs, k3, hact, k2, by rw [hae]; exact choice_limited hso hr.ok h1 hreg hk,
    hac, k6, k7, ?_⟩
  intro a' cs' M' har' hcs' hM hM'
  obtain ⟨κ', hκ', -, hle⟩ := exchange hso hr.ok hlog h1 hreg hden har'
  rw [hce]
  exact max_core hso hlog hr.ok h1 hreg hct hk hκ' (hbest.least κ' hκ' trivial) har' hcs' hM hM' (hle cs' hcs')

/-- A density estimate that weighs 0 a bit more for columns with few ones. -/
def ext27 : Ext ℚ :=
  { exExt with
    kde := fun vals => .ok fun v => if v ≤ 0 ∧ vals.sum < 2 then 101 / 100 else 1 }

/-- The full C27 is false, for every exact solver: three binary columns with coefficients 1, 2, 1; either
the second feature alone or the first and the third together reach the boundary.  Changing the second costs
(almost) 0.5, changing the other two costs 0.4975 each, so the smallest maximum is 0.4975, but the second
is returned. -/
theorem C27_max_refuted (be : Backend) : ∃ b0 b1 : Builder ℚ,
    b0.Reachable ext27 ∧ b0.costType = .max ∧ Regular ext27 b0 [0, 0, 0] ∧ Denied b0 [0, 0, 0] ∧
    b0.setX ext27 [0, 0, 0] = (b1, .ok ()) ∧
    ∀ o : Oracle ℚ, o.Exact → ∃ b' i c, b1.fit o = .ok (b', i) ∧ i.feasible = true ∧ i.cost = .fin c ∧
      ∃ a' cs', IsLimitedRecourse b0.aset b0.coefs b0.intercept [0, 0, 0] a' 1 b0.maxItems ∧
        ActionCosts ext27 b0.costType b0.aset [0, 0, 0] a' cs' ∧ ∀ v ∈ cs', v < c := by
  have key : ∀ be, ∃ b0 : Builder ℚ,
      exBuilderE be .max [[0, 0, 0], [1, 1, 1], [0, 1, 0]] ["a", "b", "c"] .ok [1, 2, 1] (-2) = .ok b0 ∧
      b0.costType = .max ∧
      regularB ext27 b0 [0, 0, 0] = true ∧ Denied b0 [0, 0, 0] ∧ (b0.setX ext27 [0, 0, 0]).2 = .ok () ∧
      admitted (b0.buildArgs [0, 0, 0] (b0.setX ext27 [0, 0, 0]).1.feats) (fun _ => true) ≠ [] ∧
      ∀ κ ∈ optChoices (b0.buildArgs [0, 0, 0] (b0.setX ext27 [0, 0, 0]).1.feats) (fun _ => true),
      ∃ κ' ∈ admitted (b0.buildArgs [0, 0, 0] (b0.setX ext27 [0, 0, 0]).1.feats) (fun _ => true),
        ∀ v ∈ cstVec b0.coefs.length (b0.setX ext27 [0, 0, 0]).1.feats κ',
          v < choiceMax (b0.setX ext27 [0, 0, 0]).1.feats κ := by
    intro be; cases be <;> decide +kernel
  obtain ⟨b0, h1, h2, h3, h4, h5, h6, h7⟩ := key be
  have hso : SetOrderOk ext27 := exExt_order
  have hpos : ∀ vals pdf, ext27.kde vals = .ok pdf → ∀ v, 0 < pdf v := by
    intro vals pdf h v
    cases h
    dsimp only
    split_ifs <;> norm_num
  have hlog : LogOk ext27 := exExt_log
  have hr : b0.Reachable ext27 := exBuilderE_reachable h1 fun A A' => prepE_ok
  have hreg := regular_of_b hr.ok hpos h3
  obtain ⟨b1, hs⟩ : ∃ b1, b0.setX ext27 [0, 0, 0] = (b1, .ok ()) := ⟨_, Prod.ext rfl h5⟩
  refine ⟨b0, b1, hr, h2, hreg, h4, hs, fun o ho => ?_⟩
  obtain ⟨b1', feats, g1, g0, g2, b', i, g3, g4⟩ := exSolve hso hr h5 ho
  rw [hs] at g1; cases g1
  rw [g2] at h6 h7
  rcases g4 with ⟨h, -⟩ | ⟨κ, hκ, -, hf, -, -, hc, -⟩
  · exact absurd h h6
  obtain ⟨κ', hκ', hlt⟩ := h7 κ hκ
  rw [if_pos h2] at hc
  have hok := (admitted_ok hκ').1
  have hrec := choice_limited hso hr.ok g0 hreg hok
  exact ⟨b', i, _, g3, hf, hc, _, _, hrec, regular_actionCosts hso hr.ok hlog g0 hreg hok.lt, hlt⟩

end Recourse
