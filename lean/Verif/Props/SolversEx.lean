import Verif.Props.Solvers
import Verif.Props.FlipEx

/-!
# Ties and `mutually_exclusive` (C94), and examples for C93
-/

set_option linter.unusedSectionVars false

namespace Recourse

variable {K : Type} [Field K] [LinearOrder K] [IsStrictOrderedRing K] [FloorRing K]

variable {ext : Ext K} {be : Backend} {n : ℕ} {p : BuildArgs K} {P : (ℕ → ℕ) → Prop} {κ : ℕ → ℕ}

/-- Among optimal choices an exact solver may return any, at all times. -/
theorem steer (hok : FeatsOK n p.feats) {b : Builder K} (h : Posed n be p P b) (hk : ChoiceOK p κ) (hP : P κ)
    (hmin : ∀ κ', ChoiceOK p κ' → P κ' → choiceObj p.costType p.feats κ ≤ choiceObj p.costType p.feats κ') :
    ∃ o : Oracle K, o.Exact ∧ ∀ o' : Oracle K, o'.Sound → (∀ k m, ∃ k', o' k m = o k' m) →
      ∃ κ' : ℕ → ℕ, Agree p.feats κ κ' ∧ (b.solve o').reported ≠ none ∧ Reports n p κ' (b.solve o').solutionInfo ∧
        (o'.Complete → Best p P κ' (b.solve o').solutionInfo) := by
  classical
  obtain ⟨m, hm, hc, -⟩ := h.mip
  obtain ⟨h3, h4⟩ := hc.feasible_encode hok hk hP
  set σ0 := encode p.feats κ with hσ0
  have hopt : m.Optimal σ0 := by
    refine ⟨h3, fun τ hτ => ?_⟩
    obtain ⟨κ', he, hκ', hP', hcv⟩ := (hc.feas τ).mp hτ
    rw [h4]
    exact (hmin κ' hκ' hP').trans (hc.le_obj hok he hcv)
  obtain ⟨o0, ho0⟩ := exists_exact_oracle K
  refine ⟨fun k m' => if m' = m then .optimal σ0 else o0 k m', ⟨?_, ?_⟩, ?_⟩
  · intro k m'
    dsimp only
    by_cases he : m' = m
    · rw [if_pos he, he]; exact hopt
    · rw [if_neg he]; exact ho0.1 k m'
  · intro k m'
    by_cases he : m' = m
    · simp only [if_pos he]
      refine ⟨fun _ => ⟨_, rfl⟩, fun hn => ?_⟩
      rw [he] at hn
      exact absurd ⟨_, hopt.1⟩ hn
    · simp only [if_neg he]
      exact ho0.2 k m'
  · intro o' hs hlike
    have hrep : (b.solve o').reported = some σ0 := by
      unfold Builder.solve
      rw [hm]
      unfold Builder.reported
      obtain ⟨k', hk'⟩ := hlike b.clock m
      simp only [if_true] at hk'
      simp [hk']
    rcases h.solved hok hs with ⟨hr, -⟩ | ⟨σ, κ', hr, he, -, -, hr', hb'⟩
    · rw [hrep] at hr; cases hr
    · rw [hrep] at hr
      have hσ : σ0 = σ := Option.some.inj hr
      refine ⟨κ', fun f hf => ?_, by rw [hrep]; simp, hr', hb'⟩
      have h1 := (encode_encodes hok hk.lt).1.u f hf (κ f.idx) (hk.lt f hf)
      rw [if_pos rfl, ← hσ0, hσ, he.u f hf _ (hk.lt f hf)] at h1
      by_contra hne
      rw [if_neg hne] at h1
      exact zero_ne_one h1

/-- Four identical binary features, coefficients 1, 2, 2, 1, threshold 3. -/
def tieBuilder (be : Backend) (ct : CostType) : Except Err (Builder ℚ) :=
  exBuilderE be ct [[0, 0, 0, 0], [1, 1, 1, 1]] ["a", "b", "c", "d"] .ok [1, 2, 2, 1] (-3)

/-- The features at positions `i` and `j` are changed. -/
def pairOf (i j : ℕ) : ℕ → ℕ := fun k => if k = i ∨ k = j then 1 else 0

/-- `κ` is admitted and no admitted choice is cheaper. -/
def cheapestB (p : BuildArgs ℚ) (κ : ℕ → ℕ) : Bool := choiceOKb p κ &&
  (choicesOf p.feats).all fun κ' => !choiceOKb p κ' ||
    decide (choiceObj p.costType p.feats κ ≤ choiceObj p.costType p.feats κ')

theorem cheapestB_ok {p : BuildArgs ℚ} {κ : ℕ → ℕ} (hok : FeatsOK n p.feats) (h : cheapestB p κ = true) :
    ChoiceOK p κ ∧ ∀ κ', ChoiceOK p κ' → choiceObj p.costType p.feats κ ≤ choiceObj p.costType p.feats κ' := by
  unfold cheapestB at h
  rw [Bool.and_eq_true, choiceOKb_iff, List.all_eq_true] at h
  refine ⟨h.1, fun κ' hk => ?_⟩
  obtain ⟨κ'', h1, h2⟩ := mem_choicesOf hok.nodup hk.lt
  have := h.2 κ'' h1
  rw [Bool.or_eq_true, decide_eq_true_eq] at this
  rcases this with h3 | h3
  · have := (choiceOKb_iff p κ'').mpr (h2.ok hk)
    rw [this] at h3; cases h3
  · rw [h2.obj]; exact h3

theorem tie_facts (be : Backend) (ct : CostType) : ∃ b0 : Builder ℚ, tieBuilder be ct = .ok b0 ∧
    (((b0.setX exExt [0, 0, 0, 0]).2 = .ok () ∧ numActionable b0.aset = 4 ∧ b0.backend = be ∧ b0.costType = ct ∧
      b0.aset.cons.items = [] ∧
      (let p := b0.buildArgs [0, 0, 0, 0] (b0.setX exExt [0, 0, 0, 0]).1.feats
      cheapestB p (pairOf 0 1) = true ∧ cheapestB p (pairOf 1 2) = true ∧ choiceOKb p (pairOf 2 3) = true ∧
      (p.feats.all fun f => decide (pairOf 0 1 f.idx = 0 ∨ pairOf 2 3 f.idx = 0)) = true ∧
      ((choicesOf p.feats).all fun κ => !choiceOKb p κ ||
        p.feats.any fun f => decide (κ f.idx ≠ 0 ∧ pairOf 1 2 f.idx ≠ 0)) = true)) ∧ True) := by
  cases be <;> cases ct <;> decide +kernel

/-- The first item of an enumeration by a steered solver. -/
theorem steer_head (hok : FeatsOK n p.feats) {b b' : Builder K} (h : Posed n be p (fun _ => True) b)
    (hk : ChoiceOK p κ) {o : Oracle K} (ho : o.Exact) {κ' : ℕ → ℕ} (hag : Agree p.feats κ κ')
    (hrep : (b.solve o).reported ≠ none) (hr : Reports n p κ' (b.solve o).solutionInfo) {et : EnumType}
    {fuel : ℕ} {l : List (Info K)} (hl : b.populate o et fuel none = .ok (some (b', l))) :
    ∃ t : List ((ℕ → ℕ) × Info K), l = t.map (·.2) ∧ Trace n be et p o.Complete (fun _ => True) t ∧
      (¬ ∃ κ, ChoiceOK p κ ∧ Left et be p (fun _ => True) t κ) ∧
      ∃ q t', t = q :: t' ∧ ∀ f ∈ p.feats, (q.1 f.idx = 0 ↔ κ f.idx = 0) := by
  obtain ⟨t, he, ht, -, -, hend⟩ := h.popLoop hok ho.1 (populate_ok hl).2.2
  rw [List.nil_append] at he
  refine ⟨t, he, ht, ?_, ?_⟩
  · rcases hend with ⟨k, hk, -⟩ | hend
    · cases hk
    · exact hend ho.2
  · obtain ⟨i, hf, hh⟩ := populate_head hl
    obtain ⟨-, -, rfl⟩ := fit_ok hf
    rcases hh with ⟨-, hfe⟩ | ⟨l', hl', -⟩
    · rw [hr.feasible] at hfe; cases hfe
    · rw [he] at hl'
      cases t with
      | nil => cases hl'
      | cons q t' =>
        have hq : q.2 = (b.solve o).solutionInfo := (List.cons.inj hl').1
        refine ⟨q, t', rfl, ?_⟩
        obtain ⟨q1, -, q3⟩ := ht.mem q List.mem_cons_self
        have hkl : Choice p.feats κ' := fun f hf => by rw [← hag f hf]; exact hk.lt f hf
        have ha : actVec n p.feats q.1 = actVec n p.feats κ' := by
          have e1 := q3.actions
          have e2 := hr.actions
          rw [hq, e2] at e1
          exact (Option.some.inj e1).symm
        have hs : SameFeatures (actVec n p.feats q.1) (actVec n p.feats κ') := by
          rw [ha]; intro j; exact Iff.rfl
        intro f hf
        rw [(sameFeatures_iff hok q1.lt hkl).mp hs f hf, hag f hf]

/-- **C94** (refuted for `mutually_exclusive`).  Which items, and how many, `populate(enumeration_type =
'mutually_exclusive')` returns depends on the solver's choice among equally good solutions: with any back end and
any cost type there are a builder and two exact solvers, of which one finds a single item and the other at
least two.  So what C93 says of `distinct_subsets` fails for `mutually_exclusive`, and the single item does not mean that
there are no two recourses with disjoint features. -/
theorem C94_mutex_refuted (be : Backend) (ct : CostType) : ∃ (b0 b1 : Builder ℚ) (x : List ℚ) (o o' : Oracle ℚ),
    b0.Reachable exExt ∧ b0.backend = be ∧ b0.costType = ct ∧ b0.aset.cons.items = [] ∧ b0.setX exExt x = (b1, .ok ()) ∧
    o.Exact ∧ o'.Exact ∧ ∃ (b2 b2' : Builder ℚ) (l l' : List (Info ℚ)),
      b1.populate o .mutuallyExclusive 6 none = .ok (some (b2, l)) ∧
      b1.populate o' .mutuallyExclusive 6 none = .ok (some (b2', l')) ∧ l.length = 1 ∧ 2 ≤ l'.length := by
  obtain ⟨b0, hb, ⟨hs, hna, hbe, hct, hcons, hfacts⟩, -⟩ := tie_facts be ct
  have hr : b0.Reachable exExt := exBuilderE_reachable hb fun _ _ hA h => prep_ok hA h
  obtain ⟨b1, hx⟩ : ∃ b1, b0.setX exExt [0, 0, 0, 0] = (b1, .ok ()) := ⟨_, Prod.ext rfl hs⟩
  obtain ⟨feats, g1, hok, hpo⟩ := Posed.setX exExt_order hr.ok hx
  have hf : (b0.setX exExt [0, 0, 0, 0]).1.feats = feats := by rw [hx]; exact hpo.feats
  rw [hf] at hfacts
  obtain ⟨f1, f2, f3, f4, f5⟩ := hfacts
  rw [choiceOKb_iff] at f3
  rw [List.all_eq_true] at f4 f5
  obtain ⟨k1, m1⟩ := cheapestB_ok hok f1
  obtain ⟨k2, m2⟩ := cheapestB_ok hok f2
  obtain ⟨o, ho, hst⟩ := steer hok hpo k2 trivial fun κ' h _ => m2 κ' h
  obtain ⟨κ, ha, hrep, hrp, -⟩ := hst o ho.1 fun k m => ⟨k, rfl⟩
  obtain ⟨o', ho', hst'⟩ := steer hok hpo k1 trivial fun κ' h _ => m1 κ' h
  obtain ⟨κ', ha', hrep', hrp', -⟩ := hst' o' ho'.1 fun k m => ⟨k, rfl⟩
  obtain ⟨b2, l, hl, -⟩ := C41_terminates exExt_order ho.1 hr hx .refl .mutuallyExclusive none (by simp)
  obtain ⟨b2', l', hl', -⟩ := C41_terminates exExt_order ho'.1 hr hx .refl .mutuallyExclusive none (by simp)
  have hl := hl 6 (by rw [hna]; decide)
  have hl' := hl' 6 (by rw [hna]; decide)
  refine ⟨b0, b1, _, o, o', hr, hbe, hct, hcons, hx, ho, ho', b2, b2', l, l', hl, hl', ?_, ?_⟩
  · obtain ⟨s, rfl, ht, -, q, s', rfl, hq⟩ := steer_head hok hpo k2 ho ha hrep hrp hl
    cases s' with
    | nil => rfl
    | cons r s' =>
      exfalso
      have hcut := List.pairwise_cons.mp ht.cut
      have hc := hcut.1 r List.mem_cons_self
      obtain ⟨r1, -, -⟩ := ht.mem r (List.mem_cons_of_mem _ List.mem_cons_self)
      obtain ⟨κ2, n1, n2⟩ := mem_choicesOf hok.nodup r1.lt
      have h5 := f5 κ2 n1
      rw [(choiceOKb_iff _ _).mpr (n2.ok r1), Bool.not_true, Bool.false_or, List.any_eq_true] at h5
      obtain ⟨f, hfm, hfd⟩ := h5
      rw [decide_eq_true_eq] at hfd
      have := hc f hfm (fun h0 => hfd.2 ((hq f hfm).mp h0))
      rw [n2 f hfm] at this
      exact hfd.1 this
  · obtain ⟨s, rfl, ht, hend, q, s', rfl, hq⟩ := steer_head hok hpo k1 ho' ha' hrep' hrp' hl'
    cases s' with
    | cons r s' => simp
    | nil =>
      exfalso
      refine hend ⟨_, f3, trivial, fun u hu => ?_⟩
      rw [List.mem_singleton] at hu
      subst hu
      intro f hfm h0
      have := f4 f hfm
      rw [decide_eq_true_eq] at this
      rcases this with h | h
      · exact absurd ((hq f hfm).mpr h) h0
      · exact h

/-- The case meets the hypotheses of C93 and C94: any two back ends and exact solvers, five or more items. -/
theorem C93_example (be be' : Backend) (ct : CostType) {o o' : Oracle ℚ} (ho : o.Exact) (ho' : o'.Exact) :
    ∃ (A : ActionSet ℚ) (b0 b1 b2 c0 c1 c2 : Builder ℚ) (x : List ℚ) (l l' : List (Info ℚ)), A.Reachable exExt ∧
      mkBuilder be ct A [1, 2, 2, 1] (-3) = .ok b0 ∧ mkBuilder be' ct A [1, 2, 2, 1] (-3) = .ok c0 ∧
      b0.setX exExt x = (b1, .ok ()) ∧ c0.setX exExt x = (c1, .ok ()) ∧ SharpCuts be A x ∧ SharpCuts be' A x ∧
      b1.populate o .distinctSubsets 17 none = .ok (some (b2, l)) ∧
      c1.populate o' .distinctSubsets 17 none = .ok (some (c2, l')) ∧
      SameValues ct l l' ∧ l.length = l'.length ∧ 2 ≤ l.length := by
  obtain ⟨A, hA, b0, hb, c0, hd, hs, hs', hna, hcons, f1, f3, f4⟩ : ∃ A : ActionSet ℚ,
      exSet [[0, 0, 0, 0], [1, 1, 1, 1]] ["a", "b", "c", "d"] = .ok A ∧ ∃ b0 : Builder ℚ,
      mkBuilder be ct A [1, 2, 2, 1] (-3) = .ok b0 ∧ ∃ c0 : Builder ℚ,
      mkBuilder be' ct A [1, 2, 2, 1] (-3) = .ok c0 ∧ ((b0.setX exExt [0, 0, 0, 0]).2 = .ok () ∧
      (c0.setX exExt [0, 0, 0, 0]).2 = .ok () ∧ numActionable A = 4 ∧ A.cons.items = [] ∧
      choiceOKb (b0.buildArgs [0, 0, 0, 0] (b0.setX exExt [0, 0, 0, 0]).1.feats) (pairOf 0 1) = true ∧
      choiceOKb (b0.buildArgs [0, 0, 0, 0] (b0.setX exExt [0, 0, 0, 0]).1.feats) (pairOf 2 3) = true ∧
      ((b0.setX exExt [0, 0, 0, 0]).1.feats.any fun f =>
        decide (pairOf 0 1 f.idx = 0 ∧ pairOf 2 3 f.idx ≠ 0)) = true) := by
    cases be <;> cases be' <;> cases ct <;> decide +kernel
  have hAr : A.Reachable exExt := .mk hA
  have hr : b0.Reachable exExt := .mk hAr hb
  have hr' : c0.Reachable exExt := .mk hAr hd
  obtain ⟨b1, hx⟩ : ∃ b1, b0.setX exExt [0, 0, 0, 0] = (b1, .ok ()) := ⟨_, Prod.ext rfl hs⟩
  obtain ⟨c1, hx'⟩ : ∃ c1, c0.setX exExt [0, 0, 0, 0] = (c1, .ok ()) := ⟨_, Prod.ext rfl hs'⟩
  have hn : numActionable b0.aset = 4 := by rw [(mkBuilder_offers hAr hb).1.numActionable, hna]
  have hn' : numActionable c0.aset = 4 := by rw [(mkBuilder_offers hAr hd).1.numActionable, hna]
  obtain ⟨b2, l, hl, -⟩ := C41_terminates exExt_order ho.1 hr hx .refl .distinctSubsets none (by simp)
  obtain ⟨c2, l', hl', -⟩ := C41_terminates exExt_order ho'.1 hr' hx' .refl .distinctSubsets none (by simp)
  have hl := hl 17 (by rw [hn]; decide)
  have hl' := hl' 17 (by rw [hn']; decide)
  have hsharp : ∀ be, SharpCuts be A ([0, 0, 0, 0] : List ℚ) := fun _ => Or.inr (Or.inl hcons)
  obtain ⟨e1, e2⟩ := C93_enumeration exExt_order ho ho' hAr hb hd hx hx' (hsharp be) (hsharp be') .refl .refl hl hl'
  refine ⟨A, b0, b1, b2, c0, c1, c2, _, l, l', hAr, hb, hd, hx, hx', hsharp be, hsharp be', hl, hl', e1, e2 rfl, ?_⟩
  obtain ⟨feats, g1, hok, hpo⟩ := Posed.setX exExt_order hr.ok hx
  have hf : (b0.setX exExt [0, 0, 0, 0]).1.feats = feats := by rw [hx]; exact hpo.feats
  rw [hf] at f1 f3 f4
  rw [choiceOKb_iff] at f1 f3
  obtain ⟨f, hfm, hfd⟩ := List.any_eq_true.mp f4
  rw [decide_eq_true_eq] at hfd
  obtain ⟨s, rfl, ht, -, -, hend⟩ := hpo.popLoop hok ho.1 (populate_ok hl).2.2
  rcases hend with ⟨k, hk, -⟩ | hend
  · cases hk
  have hend := hend ho.2
  have hcut := cutsOff_of exExt_order hr.ok g1 (Or.inr (Or.inl (by rw [(mkBuilder_offers hAr hb).1.cons, hcons])))
  rw [List.nil_append, List.length_map]
  rcases s with - | ⟨q, - | ⟨r, s⟩⟩
  · exact absurd ⟨_, f1, trivial, by simp⟩ hend
  · exfalso
    have hqm := (ht.mem q List.mem_cons_self).1.lt
    have key : ∀ κ, ChoiceOK (b0.buildArgs [0, 0, 0, 0] feats) κ → pattern feats q.1 = pattern feats κ := by
      intro κ hk
      by_contra hne
      refine hend ⟨κ, hk, trivial, fun u hu => ?_⟩
      rw [List.mem_singleton] at hu
      subst hu
      exact (hcut.pattern hok hqm hk.lt).mpr hne
    have h12 := (key _ f1).symm.trans (key _ f3)
    exact hfd.2 ((pattern_eq.mp h12 f hfm).mp hfd.1)
  · simp

end Recourse
