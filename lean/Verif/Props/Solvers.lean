import Verif.Props.FlipUse
import Verif.Props.Use
import Verif.Props.Later

/-!
# Two solvers, two back ends: the same enumeration (C93, C94)
-/

set_option linter.unusedSectionVars false

namespace Recourse

variable {K : Type} [Field K] [LinearOrder K] [IsStrictOrderedRing K] [FloorRing K]

variable {ext : Ext K} {o o' : Oracle K} {be be' : Backend} {A : ActionSet K} {x w : List K} {t : K} {ct : CostType}
  {n : ℕ} {p : BuildArgs K} {ex ex' : Prop}

/-- Which features a choice leaves alone. -/
def pattern (feats : List (Feat K)) (κ : ℕ → ℕ) : List Bool := feats.map fun f => decide (κ f.idx = 0)

theorem pattern_eq {feats : List (Feat K)} {κ κ' : ℕ → ℕ} :
    pattern feats κ = pattern feats κ' ↔ ∀ f ∈ feats, (κ f.idx = 0 ↔ κ' f.idx = 0) := by
  unfold pattern
  rw [List.map_inj_left]
  simp only [decide_eq_decide]

theorem CutsOff.pattern {feats : List (Feat K)} {κ κ' : ℕ → ℕ} (h : CutsOff be feats) (hok : FeatsOK n feats)
    (hκ : Choice feats κ) (hκ' : Choice feats κ') :
    CutBy .distinctSubsets be feats κ κ' ↔ Recourse.pattern feats κ ≠ Recourse.pattern feats κ' := by
  rw [h.iff hok hκ hκ', sameFeatures_iff hok hκ hκ', ← pattern_eq]

theorem exists_new {α : Type} {l l' : List α} (hl : l.Nodup) {k : ℕ} (hk : k < l.length) :
    ∃ (i : ℕ) (a : α), i ≤ k ∧ l[i]? = some a ∧ a ∉ l'.take k := by
  by_contra hcon
  push Not at hcon
  have hsub : l.take (k + 1) ⊆ l'.take k := by
    intro a ha
    obtain ⟨i, hi, rfl⟩ := List.mem_iff_getElem.mp ha
    have hi' : i < k + 1 := by
      rw [List.length_take] at hi; omega
    refine hcon i _ (by omega) ?_
    rw [List.getElem_take, List.getElem?_eq_getElem]
  have hnd : (l.take (k + 1)).Nodup := hl.sublist (List.take_sublist _ _)
  have := (List.subperm_of_subset hnd hsub).length_le
  simp only [List.length_take] at this
  omega

/-- Of two exact enumerations of one program, the second is at every position at least as good as the first,
and not shorter if nothing is left. -/
theorem trace_compare (hok : FeatsOK n p.feats) (hc : CutsOff be p.feats) (hc' : CutsOff be' p.feats)
    {s s' : List ((ℕ → ℕ) × Info K)} (h : Trace n be .distinctSubsets p ex (fun _ => True) s) (hex : ex)
    (h' : Trace n be' .distinctSubsets p ex' (fun _ => True) s') (hex' : ex') {k : ℕ} {q : (ℕ → ℕ) × Info K}
    (hq : s[k]? = some q) :
    (∀ q', s'[k]? = some q' → choiceObj p.costType p.feats q'.1 ≤ choiceObj p.costType p.feats q.1) ∧
    ((¬ ∃ κ, ChoiceOK p κ ∧ Left .distinctSubsets be' p (fun _ => True) s' κ) → k < s'.length) := by
  have hk : k < s.length := (List.getElem?_eq_some_iff.mp hq).1
  have hm := h.mem
  have hm' := h'.mem
  have hnd : (s.map fun q => pattern p.feats q.1).Nodup := by
    rw [List.nodup_iff_pairwise_ne, List.pairwise_map]
    refine h.cut.imp_of_mem ?_
    intro q r hq hr hqr
    exact (hc.pattern hok (hm q hq).1.lt (hm r hr).1.lt).mp hqr
  obtain ⟨i, a, hik, hia, hnew⟩ := exists_new (l' := s'.map fun q => pattern p.feats q.1) hnd
    (k := k) (by rwa [List.length_map])
  rw [List.getElem?_map] at hia
  obtain ⟨r, hr, rfl⟩ := Option.map_eq_some_iff.mp hia
  have hrm := List.mem_of_getElem? hr
  -- the new combination costs at most as much as item `k`
  have hle : choiceObj p.costType p.feats r.1 ≤ choiceObj p.costType p.feats q.1 := by
    rcases Nat.lt_or_eq_of_le hik with hlt | rfl
    · have hs := List.pairwise_iff_getElem.mp (h.sorted hex)
      obtain ⟨h1, h2⟩ := List.getElem?_eq_some_iff.mp hr
      obtain ⟨h3, h4⟩ := List.getElem?_eq_some_iff.mp hq
      have := hs i k h1 h3 hlt
      rwa [h2, h4] at this
    · rw [hr] at hq
      rw [Option.some.inj hq]
  constructor
  · intro q' hq'
    refine le_trans ?_ hle
    have hqm' := List.mem_of_getElem? hq'
    by_cases hin : ∃ m, m ∈ s' ∧ pattern p.feats m.1 = pattern p.feats r.1
    · obtain ⟨m, hms, hmp⟩ := hin
      obtain ⟨j, hj⟩ := List.mem_iff_getElem?.mp hms
      have hjk : k ≤ j := by
        by_contra hlt
        apply hnew
        rw [← hmp, ← List.map_take]
        refine List.mem_map_of_mem (f := fun q : (ℕ → ℕ) × Info K => pattern p.feats q.1) (List.mem_of_getElem? (i := j) ?_)
        rw [List.getElem?_take, if_pos (by omega), hj]
      have h1 : choiceObj p.costType p.feats q'.1 ≤ choiceObj p.costType p.feats m.1 := by
        rcases Nat.lt_or_eq_of_le hjk with hlt | rfl
        · have hs := List.pairwise_iff_getElem.mp (h'.sorted hex')
          obtain ⟨h1, h2⟩ := List.getElem?_eq_some_iff.mp hq'
          obtain ⟨h3, h4⟩ := List.getElem?_eq_some_iff.mp hj
          have := hs k j h1 h3 hlt
          rwa [h2, h4] at this
        · rw [hj] at hq'
          rw [Option.some.inj hq']
      refine h1.trans ((h'.best hex' m hms).2.2 r.1 (hm r hrm).1 trivial fun u hu hcb => ?_)
      rw [hc'.pattern hok (hm' u hu).1.lt (hm' m hms).1.lt, hmp] at hcb
      exact (hc'.pattern hok (hm' u hu).1.lt (hm r hrm).1.lt).mpr hcb
    · push Not at hin
      exact (h'.best hex' q' hqm').2.2 r.1 (hm r hrm).1 trivial fun u hu _ =>
        (hc'.pattern hok (hm' u hu).1.lt (hm r hrm).1.lt).mpr (hin u hu)
  · intro hend
    by_contra hlt
    apply hend
    refine ⟨r.1, (hm r hrm).1, trivial, fun u hu => ?_⟩
    refine (hc'.pattern hok (hm' u hu).1.lt (hm r hrm).1.lt).mpr fun he => hnew ?_
    rw [List.take_of_length_le (by rw [List.length_map]; omega), ← he]
    exact List.mem_map_of_mem (f := fun q : (ℕ → ℕ) × Info K => pattern p.feats q.1) hu

/-- The two lists report the same objective values at the same positions (and the same costs, unless the cost
type is `max`). -/
def SameValues (ct : CostType) (l l' : List (Info K)) : Prop :=
  ∀ (k : ℕ) (i i' : Info K), l[k]? = some i → l'[k]? = some i' →
    (∃ u, i.upperbound = .fin u ∧ i'.upperbound = .fin u) ∧
    (ct ≠ .max → ∃ c, i.cost = .fin c ∧ i'.cost = .fin c)

theorem same_enumeration (hok : FeatsOK n p.feats) (hc : CutsOff be p.feats) (hc' : CutsOff be' p.feats)
    (ho : o.Exact) (ho' : o'.Exact) {b b2 c c2 : Builder K} (hb : Posed n be p (fun _ => True) b)
    (hd : Posed n be' p (fun _ => True) c) {fuel fuel' : ℕ} {total total' : Option ℕ} {l l' : List (Info K)}
    (hl : b.populate o .distinctSubsets fuel total = .ok (some (b2, l)))
    (hl' : c.populate o' .distinctSubsets fuel' total' = .ok (some (c2, l'))) :
    SameValues p.costType l l' ∧ (total = total' → l.length = l'.length) := by
  obtain ⟨s, rfl, hs, -, htot, hend⟩ := hb.popLoop hok ho.1 (populate_ok hl).2.2
  obtain ⟨s', rfl, hs', -, htot', hend'⟩ := hd.popLoop hok ho'.1 (populate_ok hl').2.2
  simp only [List.nil_append]
  have key : ∀ (k : ℕ) (hk : k < s.length) (hk' : k < s'.length),
      choiceObj p.costType p.feats s[k].1 = choiceObj p.costType p.feats s'[k].1 := fun k hk hk' =>
    le_antisymm
      ((trace_compare hok hc' hc hs' ho'.2 hs ho.2 (List.getElem?_eq_getElem hk')).1 _ (List.getElem?_eq_getElem hk))
      ((trace_compare hok hc hc' hs ho.2 hs' ho'.2 (List.getElem?_eq_getElem hk)).1 _ (List.getElem?_eq_getElem hk'))
  constructor
  · intro k i i' hi hi'
    rw [List.getElem?_map] at hi hi'
    obtain ⟨q, hq, rfl⟩ := Option.map_eq_some_iff.mp hi
    obtain ⟨q', hq', rfl⟩ := Option.map_eq_some_iff.mp hi'
    obtain ⟨hk, rfl⟩ := List.getElem?_eq_some_iff.mp hq
    obtain ⟨hk', rfl⟩ := List.getElem?_eq_some_iff.mp hq'
    have he := key k hk hk'
    obtain ⟨u1, u2, -⟩ := hs.best ho.2 s[k] (List.getElem_mem hk)
    obtain ⟨v1, v2, -⟩ := hs'.best ho'.2 s'[k] (List.getElem_mem hk')
    refine ⟨⟨_, u1, by rw [v1, he]⟩, fun hct => ⟨_, u2, ?_⟩⟩
    rw [v2, if_neg hct, if_neg hct]
    have hobj : ∀ κ, choiceObj p.costType p.feats κ = choiceSum p.feats κ := by
      intro κ
      revert hct
      unfold choiceObj
      cases p.costType <;> simp
    rw [hobj, hobj] at he
    rw [he]
  · rintro rfl
    simp only [List.length_map]
    apply le_antisymm
    · by_contra hlt
      push Not at hlt
      rcases hend' with ⟨k, hk, hlen⟩ | hend'
      · have := htot k hk; omega
      · have := (trace_compare hok hc hc' hs ho.2 hs' ho'.2 (List.getElem?_eq_getElem hlt)).2 (hend' ho'.2)
        omega
    · by_contra hlt
      push Not at hlt
      rcases hend with ⟨k, hk, hlen⟩ | hend
      · have := htot' k hk; omega
      · have := (trace_compare hok hc' hc hs' ho'.2 hs ho.2 (List.getElem?_eq_getElem hlt)).2 (hend ho.2)
        omega

/-- Two builders that pose the same programs, whatever the back ends. -/
theorem enum_same (hso : SetOrderOk ext) (ho : o.Exact) (ho' : o'.Exact) {b0 b1 b b2 c0 c1 c c2 : Builder K}
    (hrb : b0.Reachable ext) (hrc : c0.Reachable ext) (hs : SameSetup ext b0 { c0 with backend := b0.backend })
    (hx : b0.setX ext x = (b1, .ok ())) (hx' : c0.setX ext x = (c1, .ok ()))
    (hc : b0.backend = .pymip ∨ b0.aset.cons.items = [] ∨ ListedBinary b0.aset x)
    (hc' : c0.backend = .pymip ∨ c0.aset.cons.items = [] ∨ ListedBinary c0.aset x)
    (hr : b1.Refitted o b) (hr' : c1.Refitted o' c)
    {fuel fuel' : ℕ} {total total' : Option ℕ} {l l' : List (Info K)}
    (hl : b.populate o .distinctSubsets fuel total = .ok (some (b2, l)))
    (hl' : c.populate o' .distinctSubsets fuel' total' = .ok (some (c2, l'))) :
    SameValues b0.costType l l' ∧ (total = total' → l.length = l'.length) := by
  obtain ⟨feats, h1, h2, h3⟩ := Posed.setX hso hrb.ok hx
  obtain ⟨feats', h1', h2', h3'⟩ := Posed.setX hso hrc.ok hx'
  have hf : feats' = feats := by
    have e : c0.buildInfo ext x = b0.buildInfo ext x := hs.buildInfo x
    rw [e, h1] at h1'
    exact (Except.ok.inj h1').symm
  subst hf
  have hp : c0.buildArgs x feats' = b0.buildArgs x feats' := hs.buildArgs x feats'
  have hn : c0.coefs.length = b0.coefs.length := congrArg List.length hs.coefs
  have hcut := cutsOff_of hso hrb.ok h1 hc
  have hcut' := cutsOff_of hso hrc.ok h1' hc'
  rw [hp, hn] at h3'
  exact same_enumeration h2 hcut hcut' ho ho' (h3.refitted hr) (h3'.refitted hr') hl hl'

theorem fillCache_actionable (e : Elem K) : (e.fillCache ext).actionable = e.actionable := by
  unfold Elem.fillCache
  cases e.table ext <;> rfl

/-- The builder for an action set that has been used, with another back end, poses the same programs. -/
theorem touched_setup {A' : ActionSet K} (hA : A.Reachable ext) (h : Touched ext A w A') {b c : Builder K}
    (hb : mkBuilder be ct A w t = .ok b) (hc : mkBuilder be' ct A' w t = .ok c) :
    SameSetup ext b { c with backend := b.backend } := by
  obtain ⟨p1, p2, p3, p4, p5, p6, p7⟩ := mkBuilder_parts hb
  obtain ⟨q1, q2, q3, q4, q5, q6, q7⟩ := mkBuilder_parts hc
  have hn : c.aset.norm ext = b.aset.norm ext := by
    rcases h.2 with rfl | ⟨A1, k1, k2⟩
    · rw [p1] at q1; rw [Except.ok.inj q1]
    · have e1 : A1 = b.aset := by
        have h3 := mkBuilder_aligned hb
        unfold AlignedWith at k1 h3
        by_cases hk : A.alignmentKnown = true
        · rw [if_pos hk] at k1 h3; rw [k1, h3]
        · rw [if_neg hk] at k1 h3
          rw [k1] at h3; exact Except.ok.inj h3
      have hk : A'.alignmentKnown = true := by
        rw [← norm_alignmentKnown (ext := ext) A', k2, norm_alignmentKnown]
        exact k1.known hA
      rw [if_pos hk] at q1
      rw [← Except.ok.inj q1, k2, e1]
  have he : c.aset.elems.map (fun e => e.fillCache ext) = b.aset.elems.map (fun e => e.fillCache ext) := by
    have := congrArg ActionSet.elems hn
    exact this
  have hnm : ∀ A : ActionSet K, A.elems.map (·.name) = (A.elems.map fun e => e.fillCache ext).map (·.name) := by
    intro A
    rw [List.map_map]
    refine List.map_congr_left fun e _ => ?_
    exact ((fillCache_fields ext e).2.2.2).symm
  have hac : ∀ A : ActionSet K, numActionable A = (A.elems.map fun e => e.fillCache ext).countP fun e => e.actionable := by
    intro A
    unfold numActionable
    rw [List.countP_map]
    refine List.countP_congr fun e _ => ?_
    rw [Function.comp, fillCache_actionable]
  refine ⟨rfl, q2.trans p2.symm, q3.trans p3.symm, ?_, q4.trans p4.symm, q6.trans p6.symm, ?_, hn⟩
  · change c.varNames = b.varNames
    rw [q5, p5, hnm, he, ← hnm]
  · change c.maxItems = b.maxItems
    obtain ⟨f1, -, -, -, -, -, f7⟩ := mkBuilder_offers hA hb
    obtain ⟨g1, -, -, -, -, -, g7⟩ := mkBuilder_offers h.1 hc
    rw [f7, g7, ← f1.numActionable, ← g1.numActionable, hac, he, ← hac]

theorem ListedBinary.norm {A B : ActionSet K} (h : B.norm ext = A.norm ext) (hl : ListedBinary A x) :
    ListedBinary B x := by
  have he : B.elems.map (fun e => e.fillCache ext) = A.elems.map (fun e => e.fillCache ext) := congrArg ActionSet.elems h
  have hn : B.names = A.names := by
    have := congrArg ActionSet.names h; exact this
  have hc : B.cons = A.cons := by
    have := congrArg ActionSet.cons h; exact this
  intro k hk nm hnm j e xj v hj hej hx h0 hp
  rw [hc] at hk
  rw [hn] at hj
  have h1 : (B.elems.map fun e => e.fillCache ext)[j]? = some (e.fillCache ext) := by
    rw [List.getElem?_map, hej]; rfl
  rw [he, List.getElem?_map] at h1
  obtain ⟨e', h2, h3⟩ := Option.map_eq_some_iff.mp h1
  refine hl k hk nm hnm j e' xj v hj h2 hx h0 ?_
  have key : ∀ e : Elem K, Permitted (e.fillCache ext) xj v ↔ Permitted e xj v := by
    intro e
    unfold Elem.fillCache
    cases e.table ext <;> exact Iff.rfl
  rw [← key e', h3]
  exact (key e).mpr hp

theorem SameOffers.listedBinary {A B : ActionSet K} (h : SameOffers ext A B) (hl : ListedBinary A x) :
    ListedBinary B x := by
  intro k hk nm hnm j e xj v hj hej hx h0 hp
  rw [h.cons] at hk
  rw [h.names] at hj
  obtain ⟨e', h1, h2⟩ := h.getElem?' hej
  exact hl k hk nm hnm j e' xj v hj h1 hx h0 ((h2.permitted xj v).mp hp)

/-- The combination cuts of the back end separate the feature sets: it is Python-MIP, or there are no subset
limits, or the features listed in limits can only be kept or set to zero. -/
def SharpCuts (be : Backend) (A : ActionSet K) (x : List K) : Prop :=
  be = .pymip ∨ A.cons.items = [] ∨ ListedBinary A x

/-- **C93.**  Two builders for the same action set, classifier and cost type, with any back ends and any two
exact solvers, whose combination cuts are sharp (`SharpCuts`): at every point accepted by both, after any number
of fits, the two enumerations of `distinct_subsets` agree position by position on the objective value, and,
unless the cost type is `max`, on the cost; when the same number of items is asked for, they return the same
number. -/
theorem C93_enumeration (hso : SetOrderOk ext) (ho : o.Exact) (ho' : o'.Exact) (hA : A.Reachable ext)
    {b0 b1 b b2 c0 c1 c c2 : Builder K}
    (hb : mkBuilder be ct A w t = .ok b0) (hd : mkBuilder be' ct A w t = .ok c0)
    (hx : b0.setX ext x = (b1, .ok ())) (hx' : c0.setX ext x = (c1, .ok ()))
    (hc : SharpCuts be A x) (hc' : SharpCuts be' A x)
    (hr : b1.Refitted o b) (hr' : c1.Refitted o' c)
    {fuel fuel' : ℕ} {total total' : Option ℕ} {l l' : List (Info K)}
    (hl : b.populate o .distinctSubsets fuel total = .ok (some (b2, l)))
    (hl' : c.populate o' .distinctSubsets fuel' total' = .ok (some (c2, l'))) :
    SameValues ct l l' ∧ (total = total' → l.length = l'.length) := by
  obtain ⟨f1, -, -, f4, f5, -⟩ := mkBuilder_offers hA hb
  obtain ⟨g1, -, -, -, g5, -⟩ := mkBuilder_offers hA hd
  have hs := touched_setup hA ⟨hA, Or.inl rfl⟩ hb hd
  rw [← f4]
  refine enum_same hso ho ho' (.mk hA hb) (.mk hA hd) hs hx hx' ?_ ?_ hr hr' hl hl'
  · rw [f5, f1.cons]; exact hc.imp_right (Or.imp_right f1.listedBinary)
  · rw [g5, g1.cons]; exact hc'.imp_right (Or.imp_right g1.listedBinary)

theorem first_items {ct : CostType} {fuel : ℕ} {total : Option ℕ} {et : EnumType} {fs' : Flipset K}
    (hp : (mkFlipset be A x w t none).populate ext o fuel total et ct = some (fs', .ok ())) :
    ∃ c b0 b : Builder K, mkBuilder be ct A w t = .ok c ∧ c.setX ext x = (b0, .ok ()) ∧
      b0.populate o et fuel total = .ok (some (b, fs'.items)) := by
  rcases populate_cases hp with ⟨er, h1, -⟩ | ⟨er, c', b0, h1, -⟩ | ⟨er, A', b0, h1, -⟩ |
      ⟨er, A', b0, b, infos, h1, -⟩ | ⟨A', b0, b, infos, -, hm, hpop, ha⟩
  · cases h1
  · cases h1
  · cases h1
  · cases h1
  have hitems : fs'.items = infos := by
    obtain ⟨-, rfl⟩ := flipAdd_ok ha
    by_cases hl : infos.isEmpty = true
    · rw [if_pos hl, List.isEmpty_iff.mp hl]; rfl
    · rw [if_neg hl, (resort_fields _).1]; rfl
  rcases hm with ⟨m1, -⟩ | ⟨-, c', m2, m3, -⟩
  · cases m1
  · exact ⟨c', b0, b, m2, m3, by rw [hitems]; exact hpop⟩

/-- **C93**, flipsets: two flipsets for the same point, classifier and action set, with any back ends and exact
solvers, the second one created after any use of another flipset (with any sound or unsound solver) for that action set or before: the
first `populate(enumeration_type = 'distinct_subsets')` of each gives items that agree position by position on the objective
value and, unless the cost type is `max`, on the cost; for the same number of items asked for, also in number. -/
theorem C93_flipsets (hso : SetOrderOk ext) (ho : o.Exact) (ho' : o'.Exact) (hA : A.Reachable ext)
    {be0 : Backend} {x0 : List K} {t0 : K} {o0 : Oracle K} {fs fs1 fs2 : Flipset K}
    (hu : (mkFlipset be0 A x0 w t0 none).Used ext o0 fs)
    (hc : SharpCuts be A x) (hc' : SharpCuts be' A x) {fuel fuel' : ℕ} {total total' : Option ℕ}
    (hp : (mkFlipset be A x w t none).populate ext o fuel total .distinctSubsets ct = some (fs1, .ok ()))
    (hp' : (mkFlipset be' fs.aset x w t none).populate ext o' fuel' total' .distinctSubsets ct = some (fs2, .ok ())) :
    SameValues ct fs1.items fs2.items ∧ (total = total' → fs1.items.length = fs2.items.length) := by
  obtain ⟨b0, b1, b, hb, hx, hl⟩ := first_items hp
  obtain ⟨c0, c1, c, hd, hx', hl'⟩ := first_items hp'
  obtain ⟨-, ht⟩ := flipset_touched hA hu
  obtain ⟨f1, -, -, f4, f5, -⟩ := mkBuilder_offers hA hb
  obtain ⟨g1, -, -, -, g5, -⟩ := mkBuilder_offers ht.1 hd
  have hs := touched_setup hA ht hb hd
  have hcons : c0.aset.cons = A.cons := by
    have : c0.aset.cons = b0.aset.cons := by
      have := congrArg ActionSet.cons hs.aset; exact this
    rw [this, f1.cons]
  rw [← f4]
  refine enum_same hso ho ho' (.mk hA hb) (.mk ht.1 hd) hs hx hx' ?_ ?_ .refl .refl hl hl'
  · rw [f5, f1.cons]; exact hc.imp_right (Or.imp_right f1.listedBinary)
  · rw [g5, hcons]; exact hc'.imp_right (Or.imp_right fun h => ListedBinary.norm hs.aset (f1.listedBinary h))

/-- **C94** (partial).  Whatever the enumeration types, back ends and exact solvers, two enumerations at the same
point (no subset limits required) agree on whether there is an item at all, and on the objective value, unless the cost type is
`max` also on the cost, of the first.  Missing from the full property: the number and the values of the
further items, which for `mutually_exclusive` depend on the solver's choice among equally good solutions (`C94_mutex_refuted`). -/
theorem C94_first_partial (hso : SetOrderOk ext) (ho : o.Exact) (ho' : o'.Exact) (hA : A.Reachable ext)
    {b0 b1 b b2 c0 c1 c c2 : Builder K}
    (hb : mkBuilder be ct A w t = .ok b0) (hd : mkBuilder be' ct A w t = .ok c0)
    (hx : b0.setX ext x = (b1, .ok ())) (hx' : c0.setX ext x = (c1, .ok ()))
    (hr : b1.Refitted o b) (hr' : c1.Refitted o' c) {et et' : EnumType}
    {fuel fuel' : ℕ} {total total' : Option ℕ} {l l' : List (Info K)}
    (hl : b.populate o et fuel total = .ok (some (b2, l)))
    (hl' : c.populate o' et' fuel' total' = .ok (some (c2, l'))) :
    (l = [] ↔ l' = []) ∧ ∀ i i', l.head? = some i → l'.head? = some i' → i.upperbound = i'.upperbound ∧
      (ct ≠ .max → i.cost = i'.cost) := by
  obtain ⟨f1, -, -, f4, f5, -⟩ := mkBuilder_offers hA hb
  have hs := touched_setup hA ⟨hA, Or.inl rfl⟩ hb hd
  obtain ⟨feats, h1, h2, h3⟩ := Posed.setX hso (Builder.Reachable.mk hA hb).ok hx
  obtain ⟨feats', h1', h2', h3'⟩ := Posed.setX hso (Builder.Reachable.mk hA hd).ok hx'
  have hf : feats' = feats := by
    have e : c0.buildInfo ext x = b0.buildInfo ext x := hs.buildInfo x
    rw [e, h1] at h1'
    exact (Except.ok.inj h1').symm
  subst hf
  have hp : c0.buildArgs x feats' = b0.buildArgs x feats' := hs.buildArgs x feats'
  have hn : c0.coefs.length = b0.coefs.length := congrArg List.length hs.coefs
  rw [hp, hn] at h3'
  have p1 := h3.refitted hr
  have p2 := h3'.refitted hr'
  obtain ⟨e1, e2, e3⟩ := posed_same h2 h2 p1 p2 ho ho' (fun _ => Iff.rfl) rfl (fun _ _ => rfl)
  have feas : ∀ {be : Backend} {o : Oracle K} {b : Builder K},
      Posed b0.coefs.length be (b0.buildArgs x feats') (fun _ => True) b → o.Exact →
      (b.solve o).reported ≠ none → (b.solve o).solutionInfo.feasible = true := by
    intro be o b hb ho hr
    rcases hb.solved h2 ho.1 with ⟨hn, -⟩ | ⟨σ, κ, -, -, -, -, hrp, -⟩
    · exact absurd hn hr
    · exact hrp.feasible
  obtain ⟨i, hi, hh⟩ := populate_head hl
  obtain ⟨i', hi', hh'⟩ := populate_head hl'
  obtain ⟨-, -, rfl⟩ := fit_ok hi
  obtain ⟨-, -, rfl⟩ := fit_ok hi'
  rcases hh with ⟨rfl, q1⟩ | ⟨m, rfl, q1⟩ <;> rcases hh' with ⟨rfl, q2⟩ | ⟨m', rfl, q2⟩
  · exact ⟨Iff.rfl, by simp⟩
  · exfalso
    have := feas p2 ho' q2
    rw [e1, q1] at this; cases this
  · exfalso
    have := feas p1 ho q1
    rw [← e1, q2] at this; cases this
  · refine ⟨by simp, ?_⟩
    intro i i' h h'
    simp only [List.head?_cons, Option.some.injEq] at h h'
    subst h h'
    exact ⟨e2.symm, fun hct => (e3 (by rw [← f4] at hct; exact hct)).symm⟩

end Recourse
