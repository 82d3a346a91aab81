import Verif.Lemmas.Enum
import Verif.Props.Subset

/-!
# Enumeration with `populate` (C37 - C43)
-/

set_option linter.unusedSectionVars false

namespace Recourse

variable {K : Type} [Field K] [LinearOrder K] [IsStrictOrderedRing K] [FloorRing K]

variable {ext : Ext K} {o : Oracle K} {b0 b1 b b' b2 b3 : Builder K} {x : List K} {i : Info K}
  {et : EnumType} {fuel fuel' : ℕ} {total total' : Option ℕ} {l l' : List (Info K)}

/-- Listed features of positive value can only stay or be set to zero. -/
def ListedBinary (A : ActionSet K) (x : List K) : Prop :=
  ∀ k ∈ A.cons.items, ∀ nm ∈ k.names, ∀ (j : ℕ) (e : Elem K) (xj v : K), A.names[j]? = some nm →
    A.elems[j]? = some e → x[j]? = some xj → 0 < xj → Permitted e xj v → v = xj ∨ v = 0

theorem cutsOff_of (hso : SetOrderOk ext) (hb : BuilderOK ext b0) {feats : List (Feat K)}
    (h : b0.buildInfo ext x = .ok feats)
    (hc : b0.backend = .pymip ∨ b0.aset.cons.items = [] ∨ ListedBinary b0.aset x) :
    CutsOff b0.backend feats := by
  intro f hf
  have hok := buildInfo_ok hso hb h
  obtain ⟨-, -, hspec, -⟩ := buildInfo_spec hso hb h
  obtain ⟨e, xj, t, T, hs⟩ := hspec f hf
  cases hbe : b0.backend with
  | pymip => exact Or.inl rfl
  | cpx =>
    by_cases hp : f.name ∈ b0.aset.cons.flatNames ∧ 0 < xj
    · right
      rcases hc with hc | hc | hc
      · rw [hbe] at hc; cases hc
      · exfalso
        have := hp.1
        unfold Constraints.flatNames at this
        rw [hc] at this
        simp at this
      · obtain ⟨hn, hpos⟩ := hp
        unfold Constraints.flatNames at hn
        obtain ⟨k, hk, hn⟩ := List.mem_flatMap.mp hn
        have hv := fun v => hc k hk f.name hn f.idx e xj v hs.name hs.elem hs.val hpos
        have hsub : f.actions ⊆ [0, -xj] := by
          intro a ha
          obtain ⟨k, hk, rfl⟩ := List.mem_iff_getElem.mp ha
          rcases Nat.eq_zero_or_pos k with rfl | h0
          · have := hok.a0 f hf
            rw [List.getD_eq_getElem _ _ hk] at this
            rw [this]; simp
          · obtain ⟨v, h1, h2, -, -, h5, -⟩ := hs.offered hb h0 hk
            rw [List.getD_eq_getElem _ _ hk] at h5
            rcases hv v h2 with h | h
            · exact absurd h h1
            · rw [h5, h]; simp
        have := (List.subperm_of_subset (hok.nodupA f hf) hsub).length_le
        have := hok.two f hf
        simp at *
        omega
    · exact Or.inl (hs.null.2 hp)

theorem Reports.related {n : ℕ} {p : BuildArgs K} {κ κ' : ℕ → ℕ} {i i' : Info K} {R : List K → List K → Prop}
    (h : Reports n p κ i) (h' : Reports n p κ' i') (hR : R (actVec n p.feats κ) (actVec n p.feats κ')) :
    i.Related R i' := ⟨_, _, h.actions, h'.actions, hR⟩

/-! ## C37 -/

theorem distinct_items (hso : SetOrderOk ext) (ho : o.Sound) (hr : b0.Reachable ext)
    (hx : b0.setX ext x = (b1, .ok ()))
    (hc : b0.backend = .pymip ∨ b0.aset.cons.items = [] ∨ ListedBinary b0.aset x) (ha : b1.After o b)
    (hp : b.populate o .distinctSubsets fuel total = .ok (some (b', l))) :
    l.Pairwise (Info.Related fun a a' => ¬ SameFeatures a a') := by
  obtain ⟨feats, h1, h2, h3⟩ := Posed.setX hso hr.ok hx
  have hcut := cutsOff_of hso hr.ok h1 hc
  obtain ⟨Q, -, hq⟩ := h3.after h2 ho ha
  obtain ⟨t, rfl, ht, -⟩ := hq.popLoop h2 ho (populate_ok hp).2.2
  rw [List.nil_append, List.pairwise_map]
  refine ht.cut.imp_of_mem ?_
  intro q r hq hr hcb
  exact (ht.mem q hq).2.2.related (ht.mem r hr).2.2
    ((hcut.iff h2 (ht.mem q hq).1.lt (ht.mem r hr).1.lt).mp hcb)

/-- **C37.**  With Python-MIP, or without subset limits, no two items of one
`populate(enumeration_type = 'distinct_subsets')` change the same set of features: for every sound solver
(limits allowed), any number of items, and whatever fits and enumerations happened at this point before. -/
theorem C37_distinct (hso : SetOrderOk ext) (ho : o.Sound) (hr : b0.Reachable ext)
    (hx : b0.setX ext x = (b1, .ok ())) (hc : b0.backend = .pymip ∨ b0.aset.cons.items = [])
    (ha : b1.After o b) (hp : b.populate o .distinctSubsets fuel total = .ok (some (b', l))) :
    l.Pairwise (Info.Related fun a a' => ¬ SameFeatures a a') :=
  distinct_items hso ho hr hx (hc.imp_right Or.inl) ha hp

/-! ## C43 -/

/-- **C43** (partial).  On the CPLEX builder with subset limits, `distinct_subsets` repeats no feature
combination if the listed features of positive value can only be kept or set to zero.  Missing from the
full property: listed features with more values, for which it is false (`C43_cpx_refuted`). -/
theorem C43_cpx_partial (hso : SetOrderOk ext) (ho : o.Sound) (hr : b0.Reachable ext)
    (hx : b0.setX ext x = (b1, .ok ())) (hc : ListedBinary b0.aset x)
    (ha : b1.After o b) (hp : b.populate o .distinctSubsets fuel total = .ok (some (b', l))) :
    l.Pairwise (Info.Related fun a a' => ¬ SameFeatures a a') :=
  distinct_items hso ho hr hx (Or.inr (Or.inr hc)) ha hp

/-! ## C42 -/

/-- **C42.**  Feature combinations returned by one `distinct_subsets` enumeration are returned neither by a
later enumeration (of either type) nor by a later `fit()` at the same point. -/
theorem C42_not_repeated (hso : SetOrderOk ext) (ho : o.Sound) (hr : b0.Reachable ext)
    (hx : b0.setX ext x = (b1, .ok ())) (hc : b0.backend = .pymip ∨ b0.aset.cons.items = [])
    (ha : b1.After o b) (hp : b.populate o .distinctSubsets fuel total = .ok (some (b', l)))
    (ha' : b'.After o b2) :
    (∀ b3 et fuel' total' l', b2.populate o et fuel' total' = .ok (some (b3, l')) →
      ∀ i ∈ l, ∀ i' ∈ l', i.Related (fun a a' => ¬ SameFeatures a a') i') ∧
    ∀ b3 i', b2.fit o = .ok (b3, i') → i'.feasible = true →
      ∀ i ∈ l, i.Related (fun a a' => ¬ SameFeatures a a') i' := by
  obtain ⟨feats, h1, h2, h3⟩ := Posed.setX hso hr.ok hx
  have hcut := cutsOff_of hso hr.ok h1 (hc.imp_right Or.inl)
  obtain ⟨Q, -, hq⟩ := h3.after h2 ho ha
  obtain ⟨t, rfl, ht, hpo, -⟩ := hq.popLoop h2 ho (populate_ok hp).2.2
  obtain ⟨Q', hQ', hq'⟩ := hpo.after h2 ho ha'
  have main : ∀ κ' i', ChoiceOK (b0.buildArgs x feats) κ' → Q' κ' → Reports b0.coefs.length (b0.buildArgs x feats) κ' i' →
      ∀ i ∈ [] ++ t.map (·.2), i.Related (fun a a' => ¬ SameFeatures a a') i' := by
    intro κ' i' hk hQ hrep i hi
    rw [List.nil_append] at hi
    obtain ⟨q, hqt, rfl⟩ := List.mem_map.mp hi
    have := (hQ' κ' hQ).2 q hqt
    exact (ht.mem q hqt).2.2.related hrep ((hcut.iff h2 (ht.mem q hqt).1.lt hk.lt).mp this)
  constructor
  · intro b3 et fuel' total' l' hp' i hi i' hi'
    obtain ⟨t', rfl, ht', -⟩ := hq'.popLoop h2 ho (populate_ok hp').2.2
    rw [List.nil_append] at hi'
    obtain ⟨r, hrt, rfl⟩ := List.mem_map.mp hi'
    exact main r.1 r.2 (ht'.mem r hrt).1 (ht'.mem r hrt).2.1 (ht'.mem r hrt).2.2 i hi
  · intro b3 i' hf hfe i hi
    obtain ⟨-, -, rfl⟩ := fit_ok hf
    rcases hq'.solved h2 ho with ⟨-, he, -⟩ | ⟨σ, κ', -, -, hk, hP, hrep, -⟩
    · rw [he] at hfe; cases hfe
    · exact main κ' _ hk hP hrep i hi

/-! ## C39 -/

/-- **C39.**  The items of an enumeration (of either type, with any back end and limits, after any fits and
enumerations) by an exact solver come with nondecreasing objective values (`upperbound`); for `total` and
`local` this is the cost. -/
theorem C39_sorted (hso : SetOrderOk ext) (ho : o.Exact) (hr : b0.Reachable ext)
    (hx : b0.setX ext x = (b1, .ok ())) (ha : b1.After o b)
    (hp : b.populate o et fuel total = .ok (some (b', l))) :
    l.Pairwise (fun i i' => ∃ u u', i.upperbound = .fin u ∧ i'.upperbound = .fin u' ∧ u ≤ u') ∧
    (b0.costType ≠ .max →
      l.Pairwise (fun i i' => ∃ c c', i.cost = .fin c ∧ i'.cost = .fin c' ∧ c ≤ c')) := by
  obtain ⟨feats, h1, h2, h3⟩ := Posed.setX hso hr.ok hx
  obtain ⟨Q, -, hq⟩ := h3.after h2 ho.1 ha
  obtain ⟨t, rfl, ht, -⟩ := hq.popLoop h2 ho.1 (populate_ok hp).2.2
  rw [List.nil_append, List.pairwise_map, List.pairwise_map]
  have hs := ht.sorted ho.2
  have hb := ht.best ho.2
  constructor
  · refine hs.imp_of_mem ?_
    intro q r hq hr hle
    exact ⟨_, _, (hb q hq).1, (hb r hr).1, hle⟩
  · intro hct
    refine hs.imp_of_mem ?_
    intro q r hq hr hle
    have hct' : (b0.buildArgs x feats).costType ≠ .max := hct
    have hobj : ∀ κ, choiceObj (b0.buildArgs x feats).costType (b0.buildArgs x feats).feats κ
        = choiceSum (b0.buildArgs x feats).feats κ := by
      intro κ
      revert hct'
      unfold choiceObj
      cases (b0.buildArgs x feats).costType <;> simp
    have c1 := (hb q hq).2.1
    have c2 := (hb r hr).2.1
    rw [if_neg hct'] at c1 c2
    rw [hobj, hobj] at hle
    exact ⟨_, _, c1, c2, hle⟩

/-! ## C40 -/

/-- **C40, first part.**  Items of `populate(enumeration_type = 'mutually_exclusive')` change pairwise
disjoint sets of features. -/
theorem C40_disjoint (hso : SetOrderOk ext) (ho : o.Sound) (hr : b0.Reachable ext)
    (hx : b0.setX ext x = (b1, .ok ())) (ha : b1.After o b)
    (hp : b.populate o .mutuallyExclusive fuel total = .ok (some (b', l))) :
    l.Pairwise (Info.Related DisjointFeatures) := by
  obtain ⟨feats, h1, h2, h3⟩ := Posed.setX hso hr.ok hx
  obtain ⟨Q, -, hq⟩ := h3.after h2 ho ha
  obtain ⟨t, rfl, ht, -⟩ := hq.popLoop h2 ho (populate_ok hp).2.2
  rw [List.nil_append, List.pairwise_map]
  refine ht.cut.imp_of_mem ?_
  intro q r hq hr hcb
  exact (ht.mem q hq).2.2.related (ht.mem r hr).2.2
    ((mutex_iff h2 (ht.mem q hq).1.lt (ht.mem r hr).1.lt).mp hcb)

/-- **C40, second part.**  If an exact solver stops it by infeasibility (fewer items than asked for), no
permitted recourse that respects the subset limits avoids all the features used by the items (regular situations, denied points). -/
theorem C40_exhaustive (hso : SetOrderOk ext) (hlog : LogOk ext) (ho : o.Exact) (hr : b0.Reachable ext)
    (hreg : Regular ext b0 x) (hden : Denied b0 x) (hx : b0.setX ext x = (b1, .ok ()))
    (ha : b1.Refitted o b) (hp : b.populate o .mutuallyExclusive fuel total = .ok (some (b', l)))
    (hstop : ∀ k, total = some k → l.length < k) :
    ¬ ∃ a, IsLimitedRecourse b0.aset b0.coefs b0.intercept x a 1 b0.maxItems ∧
      ∀ i ∈ l, ∀ a', i.actions = some a' → DisjointFeatures a' a := by
  rintro ⟨a, har, hdis⟩
  obtain ⟨feats, h1, h2, h3⟩ := Posed.setX hso hr.ok hx
  obtain ⟨t, rfl, ht, -, -, hend⟩ := (h3.refitted ha).popLoop h2 ho.1 (populate_ok hp).2.2
  rcases hend with ⟨k, hk, hlen⟩ | hend
  · have := hstop k hk
    simp at this; omega
  obtain ⟨κ, hκ, hent, -⟩ := exchange hso hr.ok hlog h1 hreg hden har
  apply hend ho.2
  refine ⟨κ, hκ, trivial, fun q hq => ?_⟩
  refine (mutex_iff (n := b0.coefs.length) h2 (ht.mem q hq).1.lt hκ.lt).mpr ?_
  intro j
  have hd := hdis q.2 (by rw [List.nil_append]; exact List.mem_map_of_mem hq) _ (ht.mem q hq).2.2.actions j
  rcases hd with hd | hd
  · exact Or.inl hd
  · right
    by_cases hj : j < b0.coefs.length
    · have hja : j < a.length := by
        rw [har.permitted.1]
        obtain ⟨-, hxl, -⟩ := buildInfo_spec hso hr.ok h1
        rw [hxl, ← hr.ok.coefs]; exact hj
      have hju : j < (actVec b0.coefs.length feats κ).length := by rw [actVec_length]; exact hj
      rw [List.getD_eq_getElem _ _ hja] at hd
      change (actVec b0.coefs.length feats κ).getD j 0 = 0
      rw [List.getD_eq_getElem _ _ hju]
      rcases hent j _ _ (List.getElem?_eq_getElem hju) (List.getElem?_eq_getElem hja) with h | h
      · exact h
      · rw [h, hd]
    · exact List.getD_eq_default _ _ (by
        rw [actVec_length]; omega)

/-! ## C38 -/

/-- Useful recourse is one of the choices of the program. -/
theorem useful_choice (hso : SetOrderOk ext) (hlog : LogOk ext) (hb : BuilderOK ext b0)
    {feats : List (Feat K)} (h1 : b0.buildInfo ext x = .ok feats) (hreg : Regular ext b0 x) (hden : Denied b0 x)
    {a : List K} (har : IsLimitedRecourse b0.aset b0.coefs b0.intercept x a 1 b0.maxItems)
    (hu : Useful b0.aset b0.coefs a) : ∃ κ, ChoiceOK (b0.buildArgs x feats) κ ∧
      a = actVec b0.coefs.length feats κ ∧ ∀ cs, ActionCosts ext b0.costType b0.aset x a cs →
      ∀ (j : ℕ) (u c : K), (cstVec b0.coefs.length feats κ)[j]? = some u → cs[j]? = some c → u ≤ c := by
  obtain ⟨κ, hκ, hent, hc⟩ := exchange' hso hb hlog h1 hreg hden har
  refine ⟨κ, hκ, ?_, hc⟩
  have hlen : a.length = b0.coefs.length := by
    obtain ⟨-, hxl, -⟩ := buildInfo_spec hso hb h1
    rw [har.permitted.1, hxl, hb.coefs]
  apply List.ext_getElem
  · rw [actVec_length, hlen]
  · intro j hj1 hj2
    have hjw : j < b0.coefs.length := by rw [← hlen]; exact hj1
    have hjn : j < b0.aset.names.length := by rw [← hb.coefs]; exact hjw
    obtain ⟨c1, c2⟩ := hent j _ _ _ _ (List.getElem?_eq_getElem hjn) (List.getElem?_eq_getElem hj2)
      (List.getElem?_eq_getElem hj1) (List.getElem?_eq_getElem hjw)
    by_cases h0 : a[j] = 0
    · by_cases hk : Listed b0.aset b0.aset.names[j] ∨ 0 < (b0.aset.yDesired : K) * (b0.coefs[j] * a[j])
      · exact (c1 hk).symm
      · rw [c2 hk, h0]
    · exact (c1 (hu j _ _ _ (List.getElem?_eq_getElem hjn) (List.getElem?_eq_getElem hjw)
        (List.getElem?_eq_getElem hj1) h0)).symm

/-- **C38.**  In regular situations, for a denied point and an exact solver: if the enumeration of
`distinct_subsets` stops by infeasibility (fewer items than asked for, or no bound), the feature set of every
permitted recourse that respects the subset limits and all of whose changes help (changes of features listed in
a limit need not help) is the feature set of exactly one item; every item is such a
recourse; and it is the cheapest for its feature set: its cost is the smallest sum of costs (`total`,
`local`); for `max` its largest cost exceeds the largest cost of any other one by less than every cost step
(and not at all if distinct costs differ by at least some cost step). -/
theorem C38_exhaustive (hso : SetOrderOk ext) (hlog : LogOk ext) (ho : o.Exact) (hr : b0.Reachable ext)
    (hreg : Regular ext b0 x) (hden : Denied b0 x) (hx : b0.setX ext x = (b1, .ok ()))
    (hc : b0.backend = .pymip ∨ b0.aset.cons.items = [] ∨ ListedBinary b0.aset x)
    (ha : b1.Refitted o b) (hp : b.populate o .distinctSubsets fuel total = .ok (some (b', l)))
    (hstop : ∀ k, total = some k → l.length < k) :
    (∀ a, IsLimitedRecourse b0.aset b0.coefs b0.intercept x a 1 b0.maxItems →
      Useful b0.aset b0.coefs a →
      ∃! k : ℕ, ∃ (i : Info K) (a' : List K), l[k]? = some i ∧ i.actions = some a' ∧ SameFeatures a a') ∧
    ∀ i ∈ l, ∃ c a cs, i.cost = .fin c ∧ i.actions = some a ∧ i.costs = some cs ∧
      IsLimitedRecourse b0.aset b0.coefs b0.intercept x a 1 b0.maxItems ∧ Useful b0.aset b0.coefs a ∧
      ActionCosts ext b0.costType b0.aset x a cs ∧
      (b0.costType ≠ .max → c = cs.sum ∧ ∀ a' cs',
        IsLimitedRecourse b0.aset b0.coefs b0.intercept x a' 1 b0.maxItems →
        Useful b0.aset b0.coefs a' → SameFeatures a a' →
        ActionCosts ext b0.costType b0.aset x a' cs' → c ≤ cs'.sum) ∧
      (b0.costType = .max → c ∈ cs ∧ (∀ v ∈ cs, v ≤ c) ∧ ∀ a' cs' M',
        IsLimitedRecourse b0.aset b0.coefs b0.intercept x a' 1 b0.maxItems →
        Useful b0.aset b0.coefs a' → SameFeatures a a' →
        ActionCosts ext b0.costType b0.aset x a' cs' → M' ∈ cs' → (∀ v ∈ cs', v ≤ M') →
        (∀ γ, CostStep ext b0 x γ → c < M' + γ) ∧
        (∀ γ, CostStep ext b0 x γ → (∀ g g', SomeMoveCost ext b0 x g → SomeMoveCost ext b0 x g' → g < g' →
          γ ≤ g' - g) → c ≤ M')) := by
  obtain ⟨feats, h1, h2, h3⟩ := Posed.setX hso hr.ok hx
  have hcut := cutsOff_of hso hr.ok h1 hc
  have hpw := distinct_items hso ho.1 hr hx hc ha.after hp
  obtain ⟨t, rfl, ht, -, -, hend⟩ := (h3.refitted ha).popLoop h2 ho.1 (populate_ok hp).2.2
  rw [List.nil_append] at hpw hstop ⊢
  have hend : ¬ ∃ κ, ChoiceOK (b0.buildArgs x feats) κ ∧
      Left .distinctSubsets b0.backend (b0.buildArgs x feats) (fun _ => True) t κ := by
    rcases hend with ⟨k, hk, hlen⟩ | hend
    · have := hstop k hk
      simp at this; omega
    · exact hend ho.2
  constructor
  · intro a har hu
    obtain ⟨κ, hκ, rfl, -⟩ := useful_choice hso hlog hr.ok h1 hreg hden har hu
    obtain ⟨q, hq, hnc⟩ : ∃ q ∈ t, ¬ CutBy .distinctSubsets b0.backend feats q.1 κ := by
      by_contra hall
      push Not at hall
      exact hend ⟨κ, hκ, trivial, hall⟩
    have hsame : SameFeatures (actVec b0.coefs.length feats q.1) (actVec b0.coefs.length feats κ) := by
      by_contra hns
      exact hnc ((hcut.iff h2 (ht.mem q hq).1.lt hκ.lt).mpr hns)
    obtain ⟨k, hk, hkq⟩ := List.mem_iff_getElem.mp hq
    refine ⟨k, ⟨q.2, _, ?_, (ht.mem q hq).2.2.actions, fun j => (hsame j).symm⟩, ?_⟩
    · rw [List.getElem?_map, List.getElem?_eq_getElem hk, hkq]; rfl
    · rintro k' ⟨i', a', hi', ha', hs'⟩
      by_contra hne
      have hk' : k' < (t.map (·.2)).length := (List.getElem?_eq_some_iff.mp hi').1
      have hkm : k < (t.map (·.2)).length := by simpa using hk
      have hik : (t.map (·.2))[k] = q.2 := by simp [hkq]
      have hik' : (t.map (·.2))[k'] = i' := (List.getElem?_eq_some_iff.mp hi').2
      have hacts := (ht.mem q hq).2.2.actions
      rcases Nat.lt_or_ge k k' with hlt | hge
      · obtain ⟨a1, a2, e1, e2, hns⟩ := List.pairwise_iff_getElem.mp hpw k k' hkm hk' hlt
        rw [hik, hacts] at e1
        rw [hik', ha'] at e2
        cases e1; cases e2
        exact hns fun j => (hsame j).trans (hs' j)
      · have hlt : k' < k := by omega
        obtain ⟨a1, a2, e1, e2, hns⟩ := List.pairwise_iff_getElem.mp hpw k' k hk' hkm hlt
        rw [hik', ha'] at e1
        rw [hik, hacts] at e2
        cases e1; cases e2
        exact hns fun j => ((hsame j).trans (hs' j)).symm
  · intro i hi
    obtain ⟨q, hq, rfl⟩ := List.mem_map.mp hi
    obtain ⟨hk, -, hrep⟩ := ht.mem q hq
    obtain ⟨-, hcost, hleast⟩ := ht.best ho.2 q hq
    have har := choice_limited hso hr.ok h1 hreg hk
    have hac := regular_actionCosts hso hr.ok hlog h1 hreg hk.lt
    -- comparison with other useful recourse on the same features
    have cmp : ∀ a', IsLimitedRecourse b0.aset b0.coefs b0.intercept x a' 1 b0.maxItems →
        Useful b0.aset b0.coefs a' → SameFeatures (actVec b0.coefs.length feats q.1) a' →
        ∃ κ', ChoiceOK (b0.buildArgs x feats) κ' ∧
          choiceObj (b0.buildArgs x feats).costType (b0.buildArgs x feats).feats q.1
            ≤ choiceObj (b0.buildArgs x feats).costType (b0.buildArgs x feats).feats κ' ∧
          ∀ cs, ActionCosts ext b0.costType b0.aset x a' cs → ∀ (j : ℕ) (u c : K),
            (cstVec b0.coefs.length feats κ')[j]? = some u → cs[j]? = some c → u ≤ c := by
      intro a' har' hu' hsame
      obtain ⟨κ', hκ', rfl, hle⟩ := useful_choice hso hlog hr.ok h1 hreg hden har' hu'
      refine ⟨κ', hκ', hleast κ' hκ' trivial fun r hr hcb => ?_, hle⟩
      have g1 := (hcut.iff h2 (ht.mem r hr).1.lt hk.lt).mp hcb
      exact (hcut.iff h2 (ht.mem r hr).1.lt hκ'.lt).mpr fun g2 => g1 fun j => (g2 j).trans (hsame j).symm
    refine ⟨_, _, _, hcost, hrep.actions, hrep.costs,
      har, choice_useful hso hr.ok h1 hk.lt, hac, ?_, ?_⟩
    · intro hct
      have hct' : (b0.buildArgs x feats).costType ≠ .max := hct
      rw [if_neg hct']
      refine ⟨(cstVec_sum h2).symm, fun a' cs' har' hu' hsame hcs' => ?_⟩
      obtain ⟨κ', hκ', hl, hle⟩ := cmp a' har' hu' hsame
      have hobj : ∀ κ, choiceObj (b0.buildArgs x feats).costType (b0.buildArgs x feats).feats κ
          = choiceSum (b0.buildArgs x feats).feats κ := by
        intro κ
        revert hct'
        unfold choiceObj
        cases (b0.buildArgs x feats).costType <;> simp
      rw [hobj, hobj] at hl
      refine le_trans hl ?_
      change choiceSum feats κ' ≤ _
      rw [← cstVec_sum h2 (κ := κ')]
      apply pointwise_sum_le
      · obtain ⟨-, hxl, -, -⟩ := buildInfo_spec hso hr.ok h1
        rw [cstVec_length, hcs'.1, hxl, hr.ok.coefs]
      · exact hle cs' hcs'
    · intro hct
      have hct' : (b0.buildArgs x feats).costType = .max := hct
      rw [if_pos hct']
      have hsz : 1 ≤ choiceSize feats q.1 := le_trans (le_max_right _ _) hk.lo
      obtain ⟨f, hfm, hfc⟩ : ∃ f ∈ feats, q.1 f.idx ≠ 0 := by
        unfold choiceSize at hsz
        have := List.countP_pos_iff.mp hsz
        simpa using this
      have hfpos := (h2.cst_pos hfm hk.lt).2 hfc
      obtain ⟨m1, m2, m3⟩ := choiceMax_spec feats q.1
      refine ⟨?_, ?_, ?_⟩
      · rcases m3 with e | ⟨g, hg, e⟩
        · have := m2 f hfm
          rw [e] at this
          exact absurd hfpos (not_lt.mpr this)
        · change choiceMax feats q.1 ∈ cstVec b0.coefs.length feats q.1
          rw [e]; exact List.mem_of_getElem? (put_feat h2 (fun f => f.cst q.1) hg)
      · intro v hv
        change v ≤ choiceMax feats q.1
        obtain ⟨j, hj, rfl⟩ := List.mem_iff_getElem.mp hv
        have hjn : j < b0.coefs.length := by rwa [cstVec_length] at hj
        by_cases hg : ∃ g ∈ feats, g.idx = j
        · obtain ⟨g, hg, rfl⟩ := hg
          have e := put_feat h2 (fun f => f.cst q.1) hg
          change (cstVec b0.coefs.length feats q.1)[g.idx]? = _ at e
          have e2 := (List.getElem?_eq_some_iff.mp e).2
          exact e2.le.trans (m2 g hg)
        · push Not at hg
          have e := put_other (n := b0.coefs.length) (fun f : Feat K => f.cst q.1) hjn hg
          change (cstVec b0.coefs.length feats q.1)[j]? = _ at e
          have e2 := (List.getElem?_eq_some_iff.mp e).2
          exact e2.le.trans m1
      · intro a' cs' M' har' hu' hsame hcs' hM hM'
        obtain ⟨κ', hκ', hl, hle⟩ := cmp a' har' hu' hsame
        exact max_core hso hlog hr.ok h1 hreg hct hk hκ' hl har' hcs' hM hM' (hle cs' hcs')

/-! ## C41 -/

theorem popLoop_mono {acc : List (Info K)} {r : Builder K × List (Info K)}
    (h : b.popLoop o et fuel total acc = some r) (hf : fuel ≤ fuel') :
    b.popLoop o et fuel' total acc = some r := by
  induction fuel generalizing fuel' total b acc with
  | zero =>
    cases total with
    | none => simp [Builder.popLoop] at h
    | some k => cases k with
      | zero =>
        simp only [Builder.popLoop] at h
        cases fuel' <;> simpa [Builder.popLoop] using h
      | succ k => simp [Builder.popLoop] at h
  | succ fuel ih =>
    obtain ⟨f', rfl⟩ : ∃ f', fuel' = f' + 1 := ⟨fuel' - 1, by omega⟩
    have hf' : fuel ≤ f' := by omega
    have step : ∀ total' : Option ℕ, (match (b.solve o).reported with
        | none => some (b.solve o, acc)
        | some σ => Builder.popLoop o et fuel total' ((b.solve o).removeSolution et σ)
            (acc ++ [(b.solve o).solutionInfo])) = some r →
        (match (b.solve o).reported with
        | none => some (b.solve o, acc)
        | some σ => Builder.popLoop o et f' total' ((b.solve o).removeSolution et σ)
            (acc ++ [(b.solve o).solutionInfo])) = some r := by
      intro total' h
      cases hr : (b.solve o).reported with
      | none => rw [hr] at h; exact h
      | some σ => rw [hr] at h; exact ih h hf'
    cases total with
    | none => exact step none h
    | some k => cases k with
      | zero => simpa [Builder.popLoop] using h
      | succ k => exact step _ h

/-- Largest possible number of items. -/
def maxEnum (et : EnumType) (d : ℕ) : ℕ :=
  match et with
  | .distinctSubsets => 2 ^ d
  | .mutuallyExclusive => d

theorem trace_length_le (hso : SetOrderOk ext) (hb : BuilderOK ext b0) {feats : List (Feat K)}
    (h1 : b0.buildInfo ext x = .ok feats) {be : Backend} {ex : Prop} {P : (ℕ → ℕ) → Prop}
    {t : List ((ℕ → ℕ) × Info K)} (ht : Trace b0.coefs.length be et (b0.buildArgs x feats) ex P t) :
    t.length ≤ maxEnum et (numActionable b0.aset) := by
  have hle := feats_length_le hso hb h1
  cases et with
  | distinctSubsets => exact le_trans ht.length_distinct (Nat.pow_le_pow_right (by norm_num) hle)
  | mutuallyExclusive => exact le_trans ht.length_mutex hle

/-- **C41.**  `populate` returns at most `total_items` items, and it terminates also without a bound, after
at most `2 ^ d` (`distinct_subsets`) or `d` (`mutually_exclusive`) items, `d` the number of actionable
features: for every sound solver there is a result which is reached whenever the loop may run at least
`maxEnum + 1` times. -/
theorem C41_terminates (hso : SetOrderOk ext) (ho : o.Sound) (hr : b0.Reachable ext)
    (hx : b0.setX ext x = (b1, .ok ())) (ha : b1.After o b) (et : EnumType) (total : Option ℕ)
    (htot : ∀ k, total = some k → 1 ≤ k) :
    ∃ b' l, (∀ fuel, maxEnum et (numActionable b0.aset) < fuel →
        b.populate o et fuel total = .ok (some (b', l))) ∧
      l.length ≤ maxEnum et (numActionable b0.aset) ∧ ∀ k, total = some k → l.length ≤ k := by
  obtain ⟨feats, h1, h2, h3⟩ := Posed.setX hso hr.ok hx
  obtain ⟨Q, -, hq⟩ := h3.after h2 ho ha
  obtain ⟨m, hm, -⟩ := hq.mip
  set N := maxEnum et (numActionable b0.aset) with hN
  have hpop : ∀ fuel, b.populate o et fuel total = .ok (b.popLoop o et fuel total []) := by
    intro fuel
    unfold Builder.populate
    rw [hm]
    cases total with
    | none => rfl
    | some k =>
      have := htot k rfl
      simp only [Option.isNone_some, Bool.false_eq_true, if_false, decide_eq_true this]
      rfl
  cases hl : b.popLoop o et (N + 1) total [] with
  | none =>
    obtain ⟨t, hlen, ht⟩ := hq.popLoop_none h2 ho hl
    have := trace_length_le hso hr.ok h1 ht
    omega
  | some r =>
    obtain ⟨b', l⟩ := r
    obtain ⟨t, hlt, ht, -, hk, -⟩ := hq.popLoop h2 ho hl
    rw [List.nil_append] at hlt
    subst hlt
    refine ⟨b', t.map (·.2), fun fuel hf => ?_, ?_, fun k hk' => by rw [List.length_map]; exact hk k hk'⟩
    · rw [hpop, popLoop_mono hl (by omega)]
    · rw [List.length_map]; exact trace_length_le hso hr.ok h1 ht

/-! ## Concrete enumerations -/

/-- `CutBy`, evaluated. -/
def cutByB (et : EnumType) (be : Backend) (feats : List (Feat K)) (κ0 κ : ℕ → ℕ) : Bool :=
  match et with
  | .distinctSubsets => feats.any fun f => decide (¬ (κ f.idx = cutPos be f ↔ κ0 f.idx = cutPos be f))
  | .mutuallyExclusive => feats.all fun f => decide (κ0 f.idx ≠ 0 → κ f.idx = 0)

theorem cutByB_iff {be : Backend} {feats : List (Feat K)} {κ0 κ : ℕ → ℕ} :
    cutByB et be feats κ0 κ = true ↔ CutBy et be feats κ0 κ := by
  cases et
  · simp only [cutByB, CutBy, List.all_eq_true, decide_eq_true_eq]
  · simp only [cutByB, CutBy, List.any_eq_true, decide_eq_true_eq]

theorem CutBy.agree {be : Backend} {feats : List (Feat K)} {κ0 κ κ0' κ' : ℕ → ℕ} (h0 : Agree feats κ0 κ0')
    (h : Agree feats κ κ') : CutBy et be feats κ0 κ ↔ CutBy et be feats κ0' κ' := by
  cases et
  · unfold CutBy
    constructor
    · intro hh f hf; rw [← h0 f hf, ← h f hf]; exact hh f hf
    · intro hh f hf; rw [h0 f hf, h f hf]; exact hh f hf
  · unfold CutBy
    constructor
    · rintro ⟨f, hf, hh⟩; exact ⟨f, hf, by rw [← h0 f hf, ← h f hf]; exact hh⟩
    · rintro ⟨f, hf, hh⟩; exact ⟨f, hf, by rw [h0 f hf, h f hf]; exact hh⟩

theorem ChoiceOK.admitted {n : ℕ} {p : BuildArgs K} (hok : FeatsOK n p.feats) {κ : ℕ → ℕ} (h : ChoiceOK p κ) :
    ∃ κ' ∈ admitted p (fun _ => true), Agree p.feats κ κ' := by
  obtain ⟨κ', h1, h2⟩ := mem_choicesOf hok.nodup h.lt
  refine ⟨κ', ?_, h2⟩
  unfold Recourse.admitted
  simp only [List.mem_filter, Bool.and_eq_true, choiceOKb_iff, and_true]
  exact ⟨h1, h2.ok h⟩

/-- What every exact solver yields when a concrete program is enumerated: all items come from admitted
choices, and each admitted choice is cut by some item if the loop was not stopped by `total`. -/
theorem exPopulate {ext : Ext ℚ} (hso : SetOrderOk ext) {b0 : Builder ℚ} {x : List ℚ} (hr : b0.Reachable ext)
    (hx : (b0.setX ext x).2 = .ok ()) {o : Oracle ℚ} (ho : o.Exact) (et : EnumType) (total : Option ℕ)
    (htot : ∀ k, total = some k → 1 ≤ k) :
    ∃ (b1 : Builder ℚ) (feats : List (Feat ℚ)), b0.setX ext x = (b1, .ok ()) ∧ b0.buildInfo ext x = .ok feats ∧
      (b0.setX ext x).1.feats = feats ∧ ∃ (b' : Builder ℚ) (t : List ((ℕ → ℕ) × Info ℚ)),
      (∀ fuel, maxEnum et (numActionable b0.aset) < fuel →
        b1.populate o et fuel total = .ok (some (b', t.map (·.2)))) ∧
      Trace b0.coefs.length b0.backend et (b0.buildArgs x feats) o.Complete (fun _ => True) t ∧
      Posed b0.coefs.length b0.backend (b0.buildArgs x feats)
        (Left et b0.backend (b0.buildArgs x feats) (fun _ => True) t) b' ∧
      (∀ q ∈ t, ∃ κ ∈ admitted (b0.buildArgs x feats) (fun _ => true), Agree feats q.1 κ ∧
        q.2.actions = some (actVec b0.coefs.length feats κ)) ∧
      (∀ k, total = some k → t.length ≤ k) ∧
      ((∃ k, total = some k ∧ t.length = k) ∨ ∀ κ ∈ admitted (b0.buildArgs x feats) (fun _ => true),
        ∃ q ∈ t, ∃ κ' ∈ admitted (b0.buildArgs x feats) (fun _ => true), Agree feats q.1 κ' ∧
          q.2.actions = some (actVec b0.coefs.length feats κ') ∧ cutByB et b0.backend feats κ' κ = false) := by
  obtain ⟨b1, hs⟩ : ∃ b1, b0.setX ext x = (b1, .ok ()) := ⟨_, Prod.ext rfl hx⟩
  obtain ⟨feats, h1, h2, h3⟩ := Posed.setX hso hr.ok hs
  obtain ⟨b', l, hl, -, hk⟩ := C41_terminates hso ho.1 hr hs .refl et total htot
  obtain ⟨t, rfl, ht, hpo, -, hend⟩ := h3.popLoop h2 ho.1 (populate_ok (hl _ (Nat.lt_succ_self _))).2.2
  rw [List.nil_append] at hl hk
  have hmem : ∀ q ∈ t, ∃ κ ∈ admitted (b0.buildArgs x feats) (fun _ => true), Agree feats q.1 κ ∧
      q.2.actions = some (actVec b0.coefs.length feats κ) := by
    intro q hq
    obtain ⟨hk, -, hrep⟩ := ht.mem q hq
    obtain ⟨κ, hκ, hag⟩ := hk.admitted h2
    refine ⟨κ, hκ, hag, ?_⟩
    rw [hrep.actions]
    unfold actVec
    rw [List.map_congr_left fun f hf => by rw [hag.act hf]]
    rfl
  refine ⟨b1, feats, hs, h1, by rw [hs]; exact h3.feats, b', t, hl, ht, hpo, hmem, ?_, ?_⟩
  · intro k hk'
    have := hk k hk'
    rwa [List.length_map] at this
  · rcases hend with h | h
    · exact Or.inl h
    · right
      intro κ hκ
      have hok := (admitted_ok hκ).1
      have hnl := h ho.2
      obtain ⟨q, hq, hnc⟩ : ∃ q ∈ t, ¬ CutBy et b0.backend feats q.1 κ := by
        by_contra hall
        push Not at hall
        exact hnl ⟨κ, hok, trivial, hall⟩
      obtain ⟨κ', hκ', hag, hact⟩ := hmem q hq
      refine ⟨q, hq, κ', hκ', hag, hact, ?_⟩
      rw [← Bool.not_eq_true, cutByB_iff, ← CutBy.agree hag (fun f hf => rfl)]
      exact hnc

/-- Non-vacuity of C37 - C42: two binary features, either of which reaches the boundary; every exact solver
enumerates both (and for `distinct_subsets` both together). -/
theorem C37_example (be : Backend) (ct : CostType) (et : EnumType) : ∃ b0 b1 : Builder ℚ,
    b0.Reachable exExt ∧ b0.costType = ct ∧ b0.backend = be ∧ Regular exExt b0 [0, 0] ∧ Denied b0 [0, 0] ∧
    numActionable b0.aset = 2 ∧
    b0.setX exExt [0, 0] = (b1, .ok ()) ∧ ∀ o : Oracle ℚ, o.Exact → ∃ b' l,
      b1.populate o et 5 none = .ok (some (b', l)) ∧
      (et = .distinctSubsets → ∀ a ∈ [[1, 0], [0, 1], [1, 1]], ∃ i ∈ l, i.actions = some a) ∧
      (et = .mutuallyExclusive → l ≠ [] ∧ ∀ a ∈ [[1, 0], [0, 1], [1, 1]],
        ∃ i ∈ l, ∃ a', i.actions = some a' ∧ ¬ DisjointFeatures a' a) := by
  have key : ∀ be ct, ∃ b0 : Builder ℚ,
      exBuilderE be ct [[0, 0], [1, 1]] ["a", "b"] .ok [1, 2] (-1) = .ok b0 ∧ b0.costType = ct ∧
      b0.backend = be ∧ regularB exExt b0 [0, 0] = true ∧ Denied b0 [0, 0] ∧ numActionable b0.aset = 2 ∧
      (b0.setX exExt [0, 0]).2 = .ok () ∧
      ∀ a ∈ [[1, 0], [0, 1], [1, 1]],
      ∃ κ ∈ admitted (b0.buildArgs [0, 0] (b0.setX exExt [0, 0]).1.feats) (fun _ => true),
        (actVec b0.coefs.length (b0.setX exExt [0, 0]).1.feats κ) = a ∧
        ∀ κ' ∈ admitted (b0.buildArgs [0, 0] (b0.setX exExt [0, 0]).1.feats) (fun _ => true),
          (cutByB .distinctSubsets b0.backend (b0.setX exExt [0, 0]).1.feats κ' κ = false →
            actVec b0.coefs.length (b0.setX exExt [0, 0]).1.feats κ' = a) := by
    intro be ct; cases be <;> cases ct <;> decide +kernel
  obtain ⟨b0, h1, h2, hbe, h3, h4, hna, h5, h6⟩ := key be ct
  have hr : b0.Reachable exExt := exBuilderE_reachable h1 fun A A' => prep_ok
  obtain ⟨b1, hs⟩ : ∃ b1, b0.setX exExt [0, 0] = (b1, .ok ()) := ⟨_, Prod.ext rfl h5⟩
  refine ⟨b0, b1, hr, h2, hbe, regular_of_b hr.ok exExt_pos h3, h4, hna, hs, fun o ho => ?_⟩
  obtain ⟨b1', feats, g1, g0, g2, b', t, g3, ht, -, -, -, hend⟩ :=
    exPopulate exExt_order hr h5 ho et none (by simp)
  rw [hs] at g1; cases g1
  rcases hend with ⟨k, hk, -⟩ | hend
  · cases hk
  rw [g2] at h6
  refine ⟨b', _, g3 5 (by rw [hna]; cases et <;> decide), ?_, ?_⟩
  · rintro rfl a ha
    obtain ⟨κ, hκ, rfl, huniq⟩ := h6 a ha
    obtain ⟨q, hq, κ', hκ', -, hact, hcut⟩ := hend κ hκ
    exact ⟨q.2, List.mem_map_of_mem hq, by rw [hact, huniq κ' hκ' hcut]⟩
  · rintro rfl
    have hok := buildInfo_ok exExt_order hr.ok g0
    have main : ∀ a ∈ [[1, 0], [0, 1], [1, 1]],
        ∃ i ∈ t.map (·.2), ∃ a', i.actions = some a' ∧ ¬ DisjointFeatures a' a := by
      intro a ha
      obtain ⟨κ, hκ, rfl, -⟩ := h6 a ha
      obtain ⟨q, hq, κ', hκ', -, hact, hcut⟩ := hend κ hκ
      refine ⟨q.2, List.mem_map_of_mem hq, _, hact, ?_⟩
      rw [← mutex_iff (be := b0.backend) hok (admitted_ok hκ').1.lt (admitted_ok hκ).1.lt, ← cutByB_iff, hcut]
      simp
    refine ⟨?_, main⟩
    obtain ⟨i, hi, -⟩ := main [1, 0] (by simp)
    exact List.ne_nil_of_mem hi

/-- As a consequence of C42 `fit()` after `populate()` need not find the cheapest action, nor any: with one
binary feature, after one enumerated item every exact solver reports `feasible = False`, although the
recourse exists. -/
theorem C42_fit_after_populate (be : Backend) (et : EnumType) : ∃ b0 b1 : Builder ℚ,
    b0.Reachable exExt ∧ Regular exExt b0 [0] ∧ Denied b0 [0] ∧ b0.setX exExt [0] = (b1, .ok ()) ∧
    ∀ o : Oracle ℚ, o.Exact → ∃ b' i b'' i', b1.populate o et 3 (some 1) = .ok (some (b', [i])) ∧
      i.actions = some [1] ∧ IsRecourse b0.aset b0.coefs b0.intercept [0] [1] 1 b0.maxItems ∧
      b'.fit o = .ok (b'', i') ∧ i'.feasible = false := by
  have key : ∀ be, ∃ b0 : Builder ℚ,
      exBuilderE be .total [[0], [1]] ["a"] .ok [1] (-1) = .ok b0 ∧
      regularB exExt b0 [0] = true ∧ Denied b0 [0] ∧ b0.minItems = 0 ∧ numActionable b0.aset = 1 ∧
      (b0.setX exExt [0]).2 = .ok () ∧
      admitted (b0.buildArgs [0] (b0.setX exExt [0]).1.feats) (fun _ => true) ≠ [] ∧
      ∀ κ ∈ admitted (b0.buildArgs [0] (b0.setX exExt [0]).1.feats) (fun _ => true),
        actVec b0.coefs.length (b0.setX exExt [0]).1.feats κ = [1] ∧
        ∀ κ' ∈ admitted (b0.buildArgs [0] (b0.setX exExt [0]).1.feats) (fun _ => true),
          ∀ et ∈ [EnumType.distinctSubsets, .mutuallyExclusive],
          cutByB et b0.backend (b0.setX exExt [0]).1.feats κ' κ = false := by
    intro be; cases be <;> decide +kernel
  obtain ⟨b0, h1, h3, h4, hmin, hna, h5, hne, h6⟩ := key be
  have hr : b0.Reachable exExt := exBuilderE_reachable h1 fun A A' => prep_ok
  obtain ⟨b1, hs⟩ : ∃ b1, b0.setX exExt [0] = (b1, .ok ()) := ⟨_, Prod.ext rfl h5⟩
  refine ⟨b0, b1, hr, regular_of_b hr.ok exExt_pos h3, h4, hs, fun o ho => ?_⟩
  obtain ⟨b1', feats, g1, g0, g2, b', t, g3, ht, hpo, hadm, hlen, hend⟩ :=
    exPopulate exExt_order hr h5 ho et (some 1) (by simp)
  rw [hs] at g1; cases g1
  rw [g2] at h6 hne
  have hlen1 : t.length = 1 := by
    rcases hend with ⟨k, hk, h⟩ | hend
    · cases hk; exact h
    · obtain ⟨κ, hκ⟩ := List.exists_mem_of_ne_nil _ hne
      obtain ⟨q, hq, -⟩ := hend κ hκ
      have := hlen 1 rfl
      have := List.length_pos_of_mem hq
      omega
  obtain ⟨q, rfl⟩ := List.length_eq_one_iff.mp hlen1
  obtain ⟨κ, hκ, hag, hact⟩ := hadm q (by simp)
  have hok := buildInfo_ok exExt_order hr.ok g0
  have hrec := choice_isRecourse exExt_order hr.ok g0 (admitted_ok hκ).1
  rw [hmin, (h6 κ hκ).1] at hrec
  obtain ⟨m, hm, -⟩ := hpo.mip
  refine ⟨b', q.2, b'.solve o, (b'.solve o).solutionInfo, g3 3 (by rw [hna]; cases et <;> decide),
    by rw [hact, (h6 κ hκ).1], hrec, by unfold Builder.fit; rw [hm], ?_⟩
  rcases hpo.solved hok ho.1 with ⟨-, he, -⟩ | ⟨σ, κ', -, -, hk, hP, -, -⟩
  · rw [he]; rfl
  · exfalso
    obtain ⟨κ'', hκ'', hag'⟩ := hk.admitted hok
    have hc := hP.2 q (by simp)
    have hc' := cutByB_iff.mpr ((CutBy.agree hag hag').mp hc)
    have := (h6 κ'' hκ'').2 κ hκ et (by cases et <;> simp)
    rw [this] at hc'; cases hc'

/-- The full C43 is false: two listed features, `a` with values 0, 1, 2 at 2 and `b` with
values 0, 1 at 1; every exact solver returns both `(-1, -1)` and `(-2, -1)`, although they change the same
features. -/
theorem C43_cpx_refuted : ∃ b0 b1 : Builder ℚ, b0.Reachable exExt ∧ b0.backend = .cpx ∧
    b0.setX exExt [2, 1] = (b1, .ok ()) ∧
    ∀ o : Oracle ℚ, o.Exact → ∃ b' l, b1.populate o .distinctSubsets 5 none = .ok (some (b', l)) ∧
      (∃ i ∈ l, i.actions = some [-1, -1]) ∧ (∃ i ∈ l, i.actions = some [-2, -1]) ∧
      SameFeatures [(-1 : ℚ), -1] [-2, -1] := by
  have key : ∃ b0 : Builder ℚ,
      exBuilderE .cpx .total [[0, 0], [1, 1], [2, 1]] ["a", "b"] (fun A => (A.addConstraint ["a", "b"] 0 2 none).map (·.1))
        [-1, -1] 1 = .ok b0 ∧ b0.backend = .cpx ∧ numActionable b0.aset = 2 ∧
      (b0.setX exExt [2, 1]).2 = .ok () ∧
      ∀ a ∈ [[-1, -1], [-2, -1]],
      ∃ κ ∈ admitted (b0.buildArgs [2, 1] (b0.setX exExt [2, 1]).1.feats) (fun _ => true),
        (actVec b0.coefs.length (b0.setX exExt [2, 1]).1.feats κ) = a ∧
        ∀ κ' ∈ admitted (b0.buildArgs [2, 1] (b0.setX exExt [2, 1]).1.feats) (fun _ => true),
          (cutByB .distinctSubsets b0.backend (b0.setX exExt [2, 1]).1.feats κ' κ = false →
            actVec b0.coefs.length (b0.setX exExt [2, 1]).1.feats κ' = a) := by
    decide +kernel
  obtain ⟨b0, h1, hbe, hna, h5, h6⟩ := key
  have hr : b0.Reachable exExt := exBuilderE_reachable h1 fun A A' hA h => addC_ok hA h
  obtain ⟨b1, hs⟩ : ∃ b1, b0.setX exExt [2, 1] = (b1, .ok ()) := ⟨_, Prod.ext rfl h5⟩
  refine ⟨b0, b1, hr, hbe, hs, fun o ho => ?_⟩
  obtain ⟨b1', feats, g1, g0, g2, b', t, g3, ht, -, -, -, hend⟩ :=
    exPopulate exExt_order hr h5 ho .distinctSubsets none (by simp)
  rw [hs] at g1; cases g1
  rcases hend with ⟨k, hk, -⟩ | hend
  · cases hk
  rw [g2] at h6
  have main : ∀ a ∈ [[-1, -1], [-2, -1]], ∃ i ∈ t.map (·.2), i.actions = some a := by
    intro a ha
    obtain ⟨κ, hκ, rfl, huniq⟩ := h6 a ha
    obtain ⟨q, hq, κ', hκ', -, hact, hcut⟩ := hend κ hκ
    exact ⟨q.2, List.mem_map_of_mem hq, by rw [hact, huniq κ' hκ' hcut]⟩
  refine ⟨b', _, g3 5 (by rw [hna]; decide), main _ (by simp), main _ (by simp), ?_⟩
  intro j
  match j with
  | 0 => simp
  | 1 => simp
  | j + 2 => simp

/-- Non-vacuity of `C43_cpx_partial`: two listed binary features at 1 next to an unlisted one. -/
theorem C43_example : ∃ b0 b1 : Builder ℚ, b0.Reachable exExt ∧ b0.backend = .cpx ∧
    b0.aset.cons.items ≠ [] ∧ ListedBinary b0.aset [1, 1, 0] ∧ Regular exExt b0 [1, 1, 0] ∧
    Denied b0 [1, 1, 0] ∧ b0.setX exExt [1, 1, 0] = (b1, .ok ()) ∧
    ∀ o : Oracle ℚ, o.Exact → ∃ b' l, b1.populate o .distinctSubsets 10 none = .ok (some (b', l)) ∧
      (∃ i ∈ l, i.actions = some [-1, 0, 0]) ∧ ∃ i ∈ l, i.actions = some [0, 0, 1] := by
  have key : ∃ b0 : Builder ℚ,
      exBuilderE .cpx .total [[0, 0, 0], [1, 1, 1]] ["a", "b", "c"] (fun A => (A.addConstraint ["a", "b"] 0 2 none).map (·.1))
        [-1, -1, 1] 1 = .ok b0 ∧ b0.backend = .cpx ∧ numActionable b0.aset = 3 ∧ regularB exExt b0 [1, 1, 0] = true ∧
      Denied b0 [1, 1, 0] ∧ (b0.setX exExt [1, 1, 0]).2 = .ok () ∧ b0.aset.cons.items.map (·.names) = [["a", "b"]] ∧
      b0.aset.names = ["a", "b", "c"] ∧
      (b0.aset.elems.map fun e => e.grid.vals) = [[0, 1], [0, 1], [0, 1]] ∧
      ∀ a ∈ [[-1, 0, 0], [0, 0, 1]],
      ∃ κ ∈ admitted (b0.buildArgs [1, 1, 0] (b0.setX exExt [1, 1, 0]).1.feats) (fun _ => true),
        (actVec b0.coefs.length (b0.setX exExt [1, 1, 0]).1.feats κ) = a ∧
        ∀ κ' ∈ admitted (b0.buildArgs [1, 1, 0] (b0.setX exExt [1, 1, 0]).1.feats) (fun _ => true),
          (cutByB .distinctSubsets b0.backend (b0.setX exExt [1, 1, 0]).1.feats κ' κ = false →
            actVec b0.coefs.length (b0.setX exExt [1, 1, 0]).1.feats κ' = a) := by
    decide +kernel
  obtain ⟨b0, h1, hbe, hna, hrg, hden, h5, hit, hnm, hgr, h6⟩ := key
  have hr : b0.Reachable exExt := exBuilderE_reachable h1 fun A A' hA h => addC_ok hA h
  obtain ⟨b1, hs⟩ : ∃ b1, b0.setX exExt [1, 1, 0] = (b1, .ok ()) := ⟨_, Prod.ext rfl h5⟩
  have hne : b0.aset.cons.items ≠ [] := by
    intro h
    rw [h] at hit; cases hit
  refine ⟨b0, b1, hr, hbe, hne, ?_, regular_of_b hr.ok exExt_pos hrg, hden, hs, fun o ho => ?_⟩
  · intro k hk nm hn j e xj v hj he hxj _ hp
    have hkn : k.names ∈ [["a", "b"]] := by rw [← hit]; exact List.mem_map_of_mem hk
    rw [List.mem_singleton] at hkn
    rw [hkn] at hn
    have hj01 : (j = 0 ∧ xj = 1) ∨ (j = 1 ∧ xj = 1) := by
      rw [hnm] at hj
      match j, hj, hxj with
      | 0, _, h => left; simpa using h.symm
      | 1, _, h => right; simpa using h.symm
      | 2, h, _ => simp at h; subst h; simp at hn
      | j + 3, h, _ => simp at h
    have hx1 : xj = 1 := by tauto
    have hg : (b0.aset.elems.map fun e => e.grid.vals)[j]? = some e.grid.vals := by
      rw [List.getElem?_map, he]; rfl
    rw [hgr] at hg
    have hg : [0, 1] = e.grid.vals := by
      rcases hj01 with ⟨rfl, -⟩ | ⟨rfl, -⟩ <;> simpa using hg
    rcases hp with hp | ⟨-, hp, -⟩
    · exact Or.inl hp
    · rw [← hg] at hp
      rw [hx1]
      simp only [List.mem_cons, List.not_mem_nil, or_false] at hp
      tauto
  obtain ⟨b1', feats, g1, g0, g2, b', t, g3, ht, -, -, -, hend⟩ :=
    exPopulate exExt_order hr h5 ho .distinctSubsets none (by simp)
  rw [hs] at g1; cases g1
  rcases hend with ⟨k, hk, -⟩ | hend
  · cases hk
  rw [g2] at h6
  have main : ∀ a ∈ [[-1, 0, 0], [0, 0, 1]], ∃ i ∈ t.map (·.2), i.actions = some a := by
    intro a ha
    obtain ⟨κ, hκ, rfl, huniq⟩ := h6 a ha
    obtain ⟨q, hq, κ', hκ', -, hact, hcut⟩ := hend κ hκ
    exact ⟨q.2, List.mem_map_of_mem hq, by rw [hact, huniq κ' hκ' hcut]⟩
  exact ⟨b', _, g3 10 (by rw [hna]; decide), main _ (by simp), main _ (by simp)⟩

end Recourse
