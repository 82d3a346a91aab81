import Verif.Lemmas.Exchange
import Mathlib.Data.Fintype.Powerset

/-!
# Enumerations
-/

set_option linter.unusedSectionVars false

namespace Recourse

variable {K : Type} [Field K] [LinearOrder K] [IsStrictOrderedRing K] [FloorRing K]

variable {ext : Ext K} {n : ℕ} {be : Backend} {et : EnumType} {p : BuildArgs K} {ex : Prop}
  {P : (ℕ → ℕ) → Prop} {t : List ((ℕ → ℕ) × Info K)} {feats : List (Feat K)} {κ κ' : ℕ → ℕ}

theorem Trace.mem (h : Trace n be et p ex P t) :
    ∀ q ∈ t, ChoiceOK p q.1 ∧ P q.1 ∧ Reports n p q.1 q.2 := by
  induction t generalizing P with
  | nil => simp
  | cons q t ih =>
    obtain ⟨κ, i⟩ := q
    obtain ⟨h1, h2, h3, -, h5⟩ := h
    intro q hq
    rcases List.mem_cons.mp hq with rfl | hq
    · exact ⟨h1, h2, h3⟩
    · obtain ⟨g1, g2, g3⟩ := ih h5 q hq
      exact ⟨g1, g2.1, g3⟩

theorem Trace.cut (h : Trace n be et p ex P t) : t.Pairwise fun q r => CutBy et be p.feats q.1 r.1 := by
  induction t generalizing P with
  | nil => exact List.Pairwise.nil
  | cons q t ih =>
    obtain ⟨κ, i⟩ := q
    obtain ⟨-, -, -, -, h5⟩ := h
    rw [List.pairwise_cons]
    exact ⟨fun r hr => (h5.mem r hr).2.1.2, ih h5⟩

/-- The optimality of the items of an exact enumeration. -/
theorem Trace.best (h : Trace n be et p ex P t) (hex : ex) : ∀ q ∈ t,
    q.2.upperbound = .fin (choiceObj p.costType p.feats q.1) ∧
    q.2.cost = .fin (if p.costType = .max then choiceMax p.feats q.1 else choiceSum p.feats q.1) ∧
    ∀ κ', ChoiceOK p κ' → P κ' →
      (∀ r ∈ t, CutBy et be p.feats r.1 q.1 → CutBy et be p.feats r.1 κ') →
      choiceObj p.costType p.feats q.1 ≤ choiceObj p.costType p.feats κ' := by
  induction t generalizing P with
  | nil => simp
  | cons q t ih =>
    obtain ⟨κ, i⟩ := q
    obtain ⟨-, -, -, h4, h5⟩ := h
    intro q hq
    rcases List.mem_cons.mp hq with rfl | hq
    · obtain ⟨b1, b2, b3⟩ := h4 hex
      exact ⟨b2, b3, fun κ' hk hP _ => b1 κ' hk hP⟩
    · obtain ⟨g1, g2, g3⟩ := ih h5 q hq
      refine ⟨g1, g2, fun κ' hk hP hr => g3 κ' hk ⟨hP, ?_⟩ fun r hr' => hr r (List.mem_cons_of_mem _ hr')⟩
      exact hr _ List.mem_cons_self (h5.mem q hq).2.1.2

theorem Trace.sorted (h : Trace n be et p ex P t) (hex : ex) :
    t.Pairwise fun q r => choiceObj p.costType p.feats q.1 ≤ choiceObj p.costType p.feats r.1 := by
  induction t generalizing P with
  | nil => exact List.Pairwise.nil
  | cons q t ih =>
    obtain ⟨κ, i⟩ := q
    obtain ⟨-, -, -, h4, h5⟩ := h
    rw [List.pairwise_cons]
    refine ⟨fun r hr => ?_, ih h5⟩
    exact (h4 hex).least r.1 (h5.mem r hr).1 (h5.mem r hr).2.1.1

/-! ## Changed features -/

theorem actVec_getD (hok : FeatsOK n feats) (hκ : Choice feats κ) (j : ℕ) :
    (actVec n feats κ).getD j 0 = 0 ↔ ∀ f ∈ feats, f.idx = j → κ f.idx = 0 := by
  by_cases hf : ∃ f ∈ feats, f.idx = j
  · obtain ⟨f, hf, rfl⟩ := hf
    have h := put_feat hok (fun f => f.act κ) hf
    change (actVec n feats κ)[f.idx]? = _ at h
    rw [List.getD_eq_getElem?_getD, h, Option.getD_some, hok.act_zero hf hκ]
    constructor
    · intro h0 g _ hgi; rw [hgi]; exact h0
    · intro h0; exact h0 f hf rfl
  · push Not at hf
    have : (actVec n feats κ).getD j 0 = 0 := by
      by_cases hj : j < n
      · have h := put_other (n := n) (fun f : Feat K => f.act κ) hj hf
        change (actVec n feats κ)[j]? = _ at h
        rw [List.getD_eq_getElem?_getD, h]; rfl
      · rw [List.getD_eq_default]
        rw [actVec_length]; omega
    simp only [this, true_iff]
    exact fun f hf' hfi => absurd hfi (hf f hf')

theorem sameFeatures_iff (hok : FeatsOK n feats) (hκ : Choice feats κ) (hκ' : Choice feats κ') :
    SameFeatures (actVec n feats κ) (actVec n feats κ') ↔ ∀ f ∈ feats, (κ f.idx = 0 ↔ κ' f.idx = 0) := by
  unfold SameFeatures
  simp only [actVec_getD hok hκ, actVec_getD hok hκ']
  constructor
  · intro h f hf
    have key : ∀ κ : ℕ → ℕ, (∀ g ∈ feats, g.idx = f.idx → κ g.idx = 0) ↔ κ f.idx = 0 := by
      intro κ
      exact ⟨fun h => h f hf rfl, fun h g _ hgi => by rw [hgi]; exact h⟩
    have := h f.idx
    rwa [key, key] at this
  · intro h j
    constructor
    · intro h1 f hf hfj; exact (h f hf).mp (h1 f hf hfj)
    · intro h1 f hf hfj; exact (h f hf).mpr (h1 f hf hfj)

theorem disjointFeatures_iff (hok : FeatsOK n feats) (hκ : Choice feats κ) (hκ' : Choice feats κ') :
    DisjointFeatures (actVec n feats κ) (actVec n feats κ') ↔ ∀ f ∈ feats, κ f.idx = 0 ∨ κ' f.idx = 0 := by
  unfold DisjointFeatures
  simp only [actVec_getD hok hκ, actVec_getD hok hκ']
  constructor
  · intro h f hf
    rcases h f.idx with h | h
    · exact Or.inl (h f hf rfl)
    · exact Or.inr (h f hf rfl)
  · intro h j
    by_cases hj : ∃ f ∈ feats, f.idx = j
    · obtain ⟨f, hf, rfl⟩ := hj
      rcases h f hf with h | h
      · exact Or.inl fun g _ hg => by rw [hg]; exact h
      · exact Or.inr fun g _ hg => by rw [hg]; exact h
    · push Not at hj
      exact Or.inl fun f hf hfj => absurd hfj (hj f hf)

/-- The combination cuts of `be` separate exactly the sets of changed features. -/
def CutsOff (be : Backend) (feats : List (Feat K)) : Prop :=
  ∀ f ∈ feats, cutPos be f = 0 ∨ f.actions.length = 2

theorem CutsOff.iff (h : CutsOff be feats) (hok : FeatsOK n feats) (hκ : Choice feats κ) (hκ' : Choice feats κ') :
    CutBy .distinctSubsets be feats κ κ' ↔ ¬ SameFeatures (actVec n feats κ) (actVec n feats κ') := by
  rw [sameFeatures_iff hok hκ hκ']
  have key : ∀ f ∈ feats, (κ' f.idx = cutPos be f ↔ κ f.idx = cutPos be f) ↔ (κ f.idx = 0 ↔ κ' f.idx = 0) := by
    intro f hf
    have h1 := hκ f hf
    have h2 := hκ' f hf
    rcases h f hf with h0 | h0
    · rw [h0]; exact iff_comm
    · have := hok.cutPos_lt be hf
      rw [h0] at h1 h2 this
      omega
  constructor
  · rintro ⟨f, hf, hne⟩ hall
    exact hne ((key f hf).mpr (hall f hf))
  · intro hn
    by_contra hc
    apply hn
    intro f hf
    rw [← key f hf]
    by_contra hne
    exact hc ⟨f, hf, hne⟩

theorem mutex_iff (hok : FeatsOK n feats) (hκ : Choice feats κ) (hκ' : Choice feats κ') :
    CutBy .mutuallyExclusive be feats κ κ' ↔ DisjointFeatures (actVec n feats κ) (actVec n feats κ') := by
  rw [disjointFeatures_iff hok hκ hκ']
  unfold CutBy
  dsimp only
  constructor
  · intro h f hf
    by_cases h0 : κ f.idx = 0
    · exact Or.inl h0
    · exact Or.inr (h f hf h0)
  · intro h f hf h0
    rcases h f hf with h | h
    · exact absurd h h0
    · exact h

/-! ## Termination -/

/-- If the loop runs out of fuel, it has found as many items. -/
theorem Posed.popLoop_none (hok : FeatsOK n p.feats) {o : Oracle K}
    (ho : o.Sound) {fuel : ℕ} {total : Option ℕ} {b : Builder K} {P : (ℕ → ℕ) → Prop}
    (h : Posed n be p P b) {acc : List (Info K)} (hl : b.popLoop o et fuel total acc = none) :
    ∃ t : List ((ℕ → ℕ) × Info K), t.length = fuel ∧ Trace n be et p o.Complete P t := by
  induction fuel generalizing total b acc P with
  | zero => exact ⟨[], rfl, trivial⟩
  | succ fuel ih =>
    have step : ∀ total' : Option ℕ,
        (match (b.solve o).reported with
        | none => some (b.solve o, acc)
        | some σ => Builder.popLoop o et fuel total' ((b.solve o).removeSolution et σ)
            (acc ++ [(b.solve o).solutionInfo])) = none →
        ∃ t : List ((ℕ → ℕ) × Info K), t.length = fuel + 1 ∧ Trace n be et p o.Complete P t := by
      intro total' hl
      rcases h.solved hok ho with ⟨hr, -, -⟩ | ⟨σ, κ, hr, he, hk, hP, hrep, hbest⟩
      · rw [hr] at hl; cases hl
      · rw [hr] at hl
        obtain ⟨t, h1, h2⟩ := ih ((h.solve o).remove hok he et) hl
        exact ⟨(κ, (b.solve o).solutionInfo) :: t, by simp [h1], hk, hP, hrep, hbest, h2⟩
    cases total with
    | none => exact step none hl
    | some k => cases k with
      | zero => simp [Builder.popLoop] at hl
      | succ k => exact step _ hl

/-- Choices that are cut off by each other are at most as many as there are subsets. -/
theorem cuts_distinct {l : List (ℕ → ℕ)} (hc : l.Pairwise fun κ κ' => CutBy .distinctSubsets be feats κ κ') :
    l.length ≤ 2 ^ feats.length := by
  classical
  -- the pattern of an item
  let g : (ℕ → ℕ) → Finset (Fin feats.length) := fun κ =>
    Finset.univ.filter fun k => κ (feats[k]).idx = cutPos be feats[k]
  have hnd : (l.map g).Nodup := by
    rw [List.nodup_iff_pairwise_ne, List.pairwise_map]
    refine hc.imp ?_
    rintro q r ⟨f, hf, hne⟩ heq
    obtain ⟨k, hk, rfl⟩ := List.mem_iff_getElem.mp hf
    apply hne
    have := Finset.ext_iff.mp heq ⟨k, hk⟩
    simp only [g, Finset.mem_filter, Finset.mem_univ, true_and] at this
    exact this.symm
  have hcard := hnd.length_le_card
  simpa using hcard

/-- At most as many combinations as there are subsets. -/
theorem Trace.length_distinct (h : Trace n be .distinctSubsets p ex P t) :
    t.length ≤ 2 ^ p.feats.length := by
  have := cuts_distinct (l := t.map (·.1)) (List.pairwise_map.mpr h.cut)
  rwa [List.length_map] at this

/-- Non-empty choices that exclude each other are at most as many as there are features. -/
theorem cuts_mutex {l : List (ℕ → ℕ)} (hsz : ∀ κ ∈ l, 1 ≤ choiceSize feats κ)
    (hc : l.Pairwise fun κ κ' => CutBy .mutuallyExclusive be feats κ κ') : l.length ≤ feats.length := by
  classical
  have hmem : ∀ κ ∈ l, ∃ j : ℕ, j ∈ feats.map (·.idx) ∧ κ j ≠ 0 := by
    intro κ hκ
    have hsz := hsz κ hκ
    unfold choiceSize at hsz
    obtain ⟨f, hf, hf0⟩ := List.countP_pos_iff.mp hsz
    exact ⟨f.idx, List.mem_map_of_mem hf, by simpa using hf0⟩
  choose! g hg hg0 using hmem
  have hnd : (l.map g).Nodup := by
    rw [List.nodup_iff_pairwise_ne, List.pairwise_map]
    refine hc.imp_of_mem ?_
    intro q r hq hr hqr heq
    obtain ⟨f, hf, hfi⟩ := List.mem_map.mp (hg q hq)
    have := hqr f hf (by rw [hfi]; exact hg0 q hq)
    rw [hfi, heq] at this
    exact hg0 r hr this
  have hsub : (l.map g) ⊆ feats.map (·.idx) := by
    intro j hj
    obtain ⟨q, hq, rfl⟩ := List.mem_map.mp hj
    exact hg q hq
  have := (List.subperm_of_subset hnd hsub).length_le
  simpa using this

/-- At most as many disjoint items as there are features. -/
theorem Trace.length_mutex (h : Trace n be .mutuallyExclusive p ex P t) :
    t.length ≤ p.feats.length := by
  have := cuts_mutex (feats := p.feats) (l := t.map (·.1)) (fun κ hκ => by
    obtain ⟨q, hq, rfl⟩ := List.mem_map.mp hκ
    exact le_trans (le_max_right _ _) (h.mem q hq).1.lo) (List.pairwise_map.mpr h.cut)
  rwa [List.length_map] at this

/-- Usable features are actionable. -/
theorem feats_length_le (hso : SetOrderOk ext) {b : Builder K} {x : List K} (hb : BuilderOK ext b)
    (h : b.buildInfo ext x = .ok feats) : feats.length ≤ numActionable b.aset := by
  have hok := buildInfo_ok hso hb h
  obtain ⟨-, -, hspec, -⟩ := buildInfo_spec hso hb h
  have hact : ∀ f ∈ feats, ∃ e, b.aset.elems[f.idx]? = some e ∧ e.actionable = true := by
    intro f hf
    obtain ⟨e, xj, t, T, hs⟩ := hspec f hf
    obtain ⟨v, h1, h2, -⟩ := hs.offered hb (k := 1) one_pos (by have := hok.two f hf; omega)
    rcases h2 with h2 | ⟨h2, -⟩
    · exact absurd h2 h1
    · exact ⟨e, hs.elem, h2⟩
  have hsub : (feats.map (·.idx)) ⊆ (List.range b.aset.elems.length).filter
      fun j => (b.aset.elems[j]?.map (·.actionable)).getD false := by
    intro j hj
    obtain ⟨f, hf, rfl⟩ := List.mem_map.mp hj
    obtain ⟨e, he, ha⟩ := hact f hf
    rw [List.mem_filter, List.mem_range]
    exact ⟨(List.getElem?_eq_some_iff.mp he).1, by rw [he]; exact ha⟩
  have h1 := (List.subperm_of_subset hok.nodup hsub).length_le
  rw [List.length_map] at h1
  refine le_trans h1 (le_of_eq ?_)
  unfold numActionable
  have key : ∀ l : List (Elem K), ((List.range l.length).filter
      fun j => (l[j]?.map (·.actionable)).getD false).length = l.countP fun e => e.actionable := by
    intro l
    rw [← List.countP_eq_length_filter]
    induction l with
    | nil => rfl
    | cons e l ih =>
      rw [List.length_cons, List.range_succ_eq_map, List.countP_cons, List.countP_map, List.countP_cons, ← ih]
      congr 1
  exact key _

/-! ## Usefulness of offered changes -/

theorem FeatSpec.useful {b : Builder K} {x : List K} {f : Feat K} {e : Elem K} {xj : K} {t : Table K} {T : List K}
    (h : FeatSpec ext b x f e xj t T) (hy : b.aset.yDesired = 1 ∨ b.aset.yDesired = -1)
    (hf : f.name ∉ b.aset.cons.flatNames) (hκ : κ f.idx < f.actions.length)
    (h0 : κ f.idx ≠ 0) : 0 < (b.aset.yDesired : K) * (f.coef * f.act κ) := by
  have hc := h.check
  unfold checkFeat at hc
  simp only [Bool.and_eq_true, Bool.or_eq_true, decide_eq_true_eq, hf, false_or] at hc
  obtain ⟨⟨⟨⟨⟨⟨⟨c1, -⟩, -⟩, c4⟩, -⟩, -⟩, -⟩, -⟩ := hc
  have hmem : f.act κ ∈ f.actions.tail := by
    unfold Feat.act
    obtain ⟨k, hk⟩ : ∃ k, κ f.idx = k + 1 := ⟨κ f.idx - 1, by omega⟩
    rw [hk] at hκ ⊢
    rw [List.getD_eq_getElem _ _ hκ]
    have hk' : k < f.actions.tail.length := by rw [List.length_tail]; omega
    have : f.actions.tail[k] = f.actions[k + 1] := by simp
    rw [← this]; exact List.getElem_mem hk'
  have hw0 : f.coef ≠ 0 := by
    intro h0
    rw [h0] at c1
    simp [isClose, isCloseTol] at c1
  rcases hy with hy | hy <;> rw [hy] at c4 ⊢ <;>
    rcases sgn_cases f.coef with ⟨hs, hw⟩ | ⟨hs, hw⟩ | ⟨hs, hw⟩ <;> rw [hs] at c4
  · simp only [mul_one, zero_lt_one, if_true, List.all_eq_true, decide_eq_true_eq] at c4
    simpa using mul_pos hw (c4 _ hmem)
  · rw [if_neg (by decide)] at c4
    simp only [List.all_eq_true, decide_eq_true_eq] at c4
    simpa using mul_pos_of_neg_of_neg hw (c4 _ hmem)
  · exact absurd hw hw0
  · rw [if_neg (by decide)] at c4
    simp only [List.all_eq_true, decide_eq_true_eq] at c4
    have := mul_neg_of_pos_of_neg hw (c4 _ hmem)
    simpa using this
  · rw [if_pos (by decide)] at c4
    simp only [List.all_eq_true, decide_eq_true_eq] at c4
    have := mul_neg_of_neg_of_pos hw (c4 _ hmem)
    simpa using this
  · exact absurd hw hw0

/-- Every admitted choice only makes useful changes. -/
theorem choice_useful (hso : SetOrderOk ext) {b : Builder K} {x : List K} (hb : BuilderOK ext b)
    (h : b.buildInfo ext x = .ok feats) (hκ : Choice feats κ) :
    Useful b.aset b.coefs (actVec b.coefs.length feats κ) := by
  have hok := buildInfo_ok hso hb h
  obtain ⟨-, -, hspec, -⟩ := buildInfo_spec hso hb h
  intro j n w a hn hw ha hne
  by_cases hl : Listed b.aset n
  · exact Or.inl hl
  right
  have hj : j < b.coefs.length := (List.getElem?_eq_some_iff.mp hw).1
  by_cases hf : ∃ f ∈ feats, f.idx = j
  · obtain ⟨f, hf, rfl⟩ := hf
    have h3 := put_feat hok (fun f => f.act κ) hf
    change (actVec b.coefs.length feats κ)[f.idx]? = _ at h3
    rw [ha] at h3; obtain rfl := Option.some.inj h3
    obtain ⟨e, xj, t, T, hs⟩ := hspec f hf
    have := hs.coef; rw [hw] at this; obtain rfl := Option.some.inj this
    have := hs.name; rw [hn] at this; obtain rfl := Option.some.inj this
    exact hs.useful hb.aset.wf.y (not_listed_iff.mpr hl) (hκ f hf) fun h0 => hne ((hok.act_zero hf hκ).mpr h0)
  · push Not at hf
    have h3 := put_other (n := b.coefs.length) (fun f : Feat K => f.act κ) hj hf
    change (actVec b.coefs.length feats κ)[j]? = _ at h3
    rw [ha] at h3; obtain rfl := Option.some.inj h3
    exact absurd rfl hne

end Recourse
