import Verif.Props.Use
import Verif.Props.Audit
import Verif.Props.FlipEx

/-!
# An audit and a flipset agree about a person (C84)
-/

set_option linter.unusedSectionVars false

namespace Recourse

variable {K : Type} [Field K] [LinearOrder K] [IsStrictOrderedRing K] [FloorRing K]
  {ext : Ext K} {o o' : Oracle K} {be be' : Backend} {ct : CostType} {A A' A1 : ActionSet K} {w x : List K} {t : K}
  {ad ad' : Auditor K} {ι : Type}

theorem Elem.Same.symm {e e' : Elem K} (h : Elem.Same ext e e') : Elem.Same ext e' e :=
  ⟨h.grid.symm, h.actionable.symm, h.stepDir.symm, h.table.symm, h.name.symm⟩

theorem SameOffers.symm (h : SameOffers ext A A') : SameOffers ext A' A := by
  refine ⟨h.y.symm, h.cons.symm, h.names.symm, ?_⟩
  have := h.elems
  have key : ∀ l l' : List (Elem K), List.Forall₂ (Elem.Same ext) l l' → List.Forall₂ (Elem.Same ext) l' l := by
    intro l l' h
    induction h with
    | nil => exact .nil
    | cons h _ ih => exact .cons h.symm ih
  exact key _ _ this

theorem SameOffers.norm (h : A'.norm ext = A.norm ext) : SameOffers ext A A' := by
  have e1 := congrArg ActionSet.names h
  have e2 := congrArg ActionSet.yDesired h
  have e3 := congrArg ActionSet.cons h
  have e4 : A'.elems.map (Elem.fillCache ext) = A.elems.map (Elem.fillCache ext) := congrArg ActionSet.elems h
  refine ⟨e2, e3, e1, ?_⟩
  have key : ∀ l l' : List (Elem K), l'.map (Elem.fillCache ext) = l.map (Elem.fillCache ext) →
      List.Forall₂ (Elem.Same ext) l l' := by
    intro l
    induction l with
    | nil =>
      intro l' hl
      rw [List.map_nil, List.map_eq_nil_iff] at hl
      rw [hl]; exact .nil
    | cons e l ih =>
      intro l' hl
      cases l' with
      | nil => simp at hl
      | cons e' l' =>
        rw [List.map_cons, List.map_cons, List.cons.injEq] at hl
        refine .cons ?_ (ih l' hl.2)
        have h1 := Elem.Same.fill (ext := ext) e
        rw [← hl.1] at h1
        exact h1.trans (Elem.Same.fill e').symm
  exact key _ _ e4

/-- Regular situations carry over to builders for sets offering the same that are aligned with the same
classifier. -/
theorem Regular.transfer {b c : Builder K} (hso : SameOffers ext c.aset b.aset) (hl : c.aset.elems.length ≤ c.coefs.length)
    (hw : b.coefs = c.coefs) (hct : b.costType ≠ .loc)
    (hmin : b.minItems ≤ 1)
    (hal : ∀ (j : ℕ) (e : Elem K) (w : K), b.aset.elems[j]? = some e → b.coefs[j]? = some w →
      e.flip = some (b.aset.yDesired * sgn w)) (h : Regular ext c x) : Regular ext b x := by
  have hfl : ∀ (j : ℕ) (e : Elem K), b.aset.elems[j]? = some e → ∃ e', c.aset.elems[j]? = some e' ∧
      Elem.Same ext e' e ∧ e.flip = e'.flip := by
    intro j e he
    obtain ⟨e', he', hs⟩ := hso.getElem?' he
    have hj : j < c.coefs.length := lt_of_lt_of_le (List.getElem?_eq_some_iff.mp he').1 hl
    have hw' := List.getElem?_eq_getElem hj
    refine ⟨e', he', hs, ?_⟩
    rw [h.aligned j e' _ he' hw', hal j e _ he (by rw [hw]; exact hw'), hso.y]
  have hli : ∀ n, Listed b.aset n ↔ Listed c.aset n := by
    intro n; unfold Listed; rw [hso.cons]
  refine ⟨?_, hal, hmin, ?_, ?_, ?_, fun h => absurd h hct⟩
  · intro l n hn hL
    rw [hso.names] at hn
    obtain ⟨h1, h2⟩ := h.limits l n hn ((hli n).mp hL)
    refine ⟨h1, fun j hj m e xj hm he hx => ?_⟩
    obtain ⟨e', he', hs, hf⟩ := hfl j e he
    rw [hso.names] at hm
    obtain ⟨k1, k2, v, k3, k4, k5⟩ := h2 j hj m e' xj hm he' hx
    refine ⟨?_, ?_, v, k3, (hs.permitted _ _).mpr k4, fun hnl d hd => ?_⟩
    · unfold Elem.compatible at k1 ⊢
      rw [hf, hs.actionable, hs.stepDir]; exact k1
    · unfold FitsGrid at k2 ⊢; rw [hs.grid]; exact k2
    · exact k5 (fun g => hnl ((hli m).mpr g)) d (by rw [← hf]; exact hd)
  · intro j e xj he hx ha
    obtain ⟨e', he', hs, -⟩ := hfl j e he
    have := h.fits j e' xj he' hx (by rw [← hs.actionable]; exact ha)
    unfold FitsGrid at this ⊢; rw [hs.grid]; exact this
  · intro j e xj v he hx ha hv
    obtain ⟨e', he', hs, -⟩ := hfl j e he
    exact h.apart j e' xj v he' hx (by rw [← hs.actionable]; exact ha) (by rw [← hs.grid]; exact hv)
  · intro j e xj u v p q he hx ha hu hv huv hp hq
    obtain ⟨e', he', hs, -⟩ := hfl j e he
    have ep : ∀ r, e'.percentile ext r = e.percentile ext r := by
      intro r; unfold Elem.percentile; rw [hs.table]
    exact h.pct j e' xj u v p q he' hx (by rw [← hs.actionable]; exact ha) (by rw [← hs.grid]; exact hu)
      (by rw [← hs.grid]; exact hv) huv (by rw [ep]; exact hp) (by rw [ep]; exact hq)

/-- Cost steps are the same for sets offering the same. -/
theorem CostStep.transfer {b c : Builder K} (hso : SameOffers ext c.aset b.aset) (hw : b.coefs = c.coefs)
    (hct : b.costType = c.costType) {γ : K} (h : CostStep ext c x γ) : CostStep ext b x γ := by
  obtain ⟨j, n, e, xj, wj, u, v, g, k, h1, h2, h3, h4, h5, h6, h7, h8, h9, h10, h11, h12⟩ := h
  obtain ⟨e', he', hs⟩ := hso.getElem? h2
  refine ⟨j, n, e', xj, wj, u, v, g, k, by rw [hso.names]; exact h1, he', h3, by rw [hw]; exact h4,
    (hs.permitted _ _).mpr h5, (hs.permitted _ _).mpr h6, h7, ?_, ?_, ?_, ?_, h12⟩
  · rw [hso.y]; unfold Listed at h8 ⊢; rw [hso.cons]; exact h8
  · rw [hso.y]; unfold Listed at h9 ⊢; rw [hso.cons]; exact h9
  · rw [hct]; exact (hs.moveCost _ _ _ _).mpr h10
  · rw [hct]; exact (hs.moveCost _ _ _ _).mpr h11

/-- What a new auditor consists of. -/
theorem mkAuditor_parts (hA : A.Reachable ext) (h : mkAuditor be A w t = .ok ad) :
    ad.Reachable ext ∧ ad.coefs = w ∧ ad.intercept = t ∧ ad.builder.coefs = w ∧ ad.builder.intercept = t ∧
    SameOffers ext A ad.builder.aset ∧ ad.builder.costType = .max ∧ ad.builder.minItems = 0 ∧
    ad.builder.maxItems = numActionable A ∧ w.length = A.elems.length ∧
    ∀ (j : ℕ) (e : Elem K) (c : K), ad.builder.aset.elems[j]? = some e → w[j]? = some c →
      e.flip = some (A.yDesired * sgn c) := by
  have hrr : ad.Reachable ext := .mk hA h
  unfold mkAuditor at h
  obtain ⟨A1, h1, h⟩ := bind_ok_iff.mp h
  obtain ⟨b, h2, h⟩ := bind_ok_iff.mp h
  have h := Except.ok.inj h
  have hlen : A.names.length = A.elems.length := by rw [← hA.wf.names, List.length_map]
  have hA1 : A1.Reachable ext := hA.align h1
  have hs1 : SameOffers ext A A1 := SameOffers.align hlen h1
  obtain ⟨g1, g2, g3, g4, g5, g6, g7⟩ := mkBuilder_offers hA1 h2
  obtain ⟨A2, k1, k2, k0, k3, -⟩ := (C12_alignment hA w).1 (setAlignment_ok h1).1
  rw [h1] at k1
  have k1 := Except.ok.inj k1
  subst k1
  have h3 := mkBuilder_aligned h2
  unfold AlignedWith at h3
  rw [if_pos k2] at h3
  subst h
  dsimp only
  have hwl : w.length = A.elems.length := (setAlignment_ok h1).1.trans hlen
  refine ⟨hrr, rfl, rfl, g2, g3, hs1.trans g1, g4, g6, g7.trans hs1.numActionable, hwl,
    fun j e c he hc => ?_⟩
  rw [h3] at he
  have hj : j < A.elems.length := by
    have := (List.getElem?_eq_some_iff.mp he).1
    rw [k0] at this; exact this
  rw [k3 j _ c (List.getElem?_eq_getElem hj) hc] at he
  rw [← Option.some.inj he]

/-- **C84**: an audit and a flipset agree about a denied person.  The audit is made with a new auditor for `A`, the
flipset is made for `A` itself or for the same object after the audit; solvers and backends may differ.  With
exact solvers the audit calls the person feasible exactly if `populate()` finds an item, whatever
its enumeration type, cost type and number of items asked for; and for cost type `max` the cost in the audit
and the cost of the first item differ by less than every cost step. -/
theorem C84_agree (hso : SetOrderOk ext) (hlog : LogOk ext) (ho : o.Exact) (ho' : o'.Exact) (hA : A.Reachable ext)
    (h : mkAuditor be A w t = .ok ad) {X : List (ι × List K)} {T : List (ι × AuditRow K)}
    (hT : ad.audit ext o X A.yDesired = (ad', .ok T)) {k : ℕ} {l l' : ι} {row : AuditRow K}
    (hX : X[k]? = some (l, x)) (hrow : T[k]? = some (l', row))
    (hden : (A.yDesired : K) * (dot w x + t) < 0)
    (hA' : A' = A ∨ A' = ad'.builder.aset) {c : Builder K} (hc : mkBuilder be' ct A' w t = .ok c)
    (hreg : Regular ext c x) {fuel : ℕ} {total : Option ℕ} {et : EnumType} {fs' : Flipset K}
    (hp : (mkFlipset be' A' x w t none).populate ext o' fuel total et ct = some (fs', .ok ())) :
    (row.feasible = some true ↔ fs'.items ≠ []) ∧ (row.feasible = some false ↔ fs'.items = []) ∧
    (ct = .max → ∀ i rest, fs'.items = i :: rest → ∃ v u, row.cost = .fin v ∧ i.cost = .fin u ∧
      ∀ γ, CostStep ext c x γ → |v - u| < γ) := by
  obtain ⟨hr, e1, e2, e3, e4, e5, e6, e7, e8, e9, e10⟩ := mkAuditor_parts hA h
  have hlen : A.names.length = A.elems.length := by rw [← hA.wf.names, List.length_map]
  have hAA : A'.Reachable ext ∧ SameOffers ext A A' := by
    rcases hA' with rfl | rfl
    · exact ⟨hA, .refl _⟩
    · have hu := (audit_ok hr.inv.1 hT).2.2.2.1.setup hr.inv.1
      exact ⟨hu.1.ok.aset, e5.trans (.norm hu.2.aset)⟩
  obtain ⟨hAr, hoff⟩ := hAA
  obtain ⟨g1, g2, g3, g4, g5, g6, g7⟩ := mkBuilder_offers hAr hc
  have hcoff : SameOffers ext c.aset ad.builder.aset := (hoff.trans g1).symm.trans e5
  have hcel : c.aset.elems.length = A.elems.length := (hoff.trans g1).elems.length_eq.symm
  have hreg' : Regular ext ad.builder x := by
    refine Regular.transfer hcoff (by rw [g2, hcel, e9]) (by rw [e3, g2]) (by rw [e6]; simp)
      (by rw [e7]; exact Nat.zero_le _) (fun j e v he hv => ?_) hreg
    rw [e3] at hv
    rw [e10 j e v he hv, e5.y]
  have hdc : Denied c x := by
    unfold Denied; rw [g2, g3, g1.y, hoff.y]; exact hden
  have hda : Denied ad.builder x := by
    unfold Denied; rw [e3, e4, e5.y]; exact hden
  have hno : ¬ HasOutcome A.yDesired ad.coefs ad.intercept x := by
    rw [e1, e2]
    unfold HasOutcome
    rcases hA.wf.y with hy | hy
    · rw [hy] at hden ⊢
      rw [if_pos (by decide)]
      push_cast at hden
      linarith
    · rw [hy] at hden ⊢
      rw [if_neg (by decide)]
      push_cast at hden
      linarith
  have hlim : ∀ a, IsLimitedRecourse A' w t x a 1 (numActionable A') ↔
      IsLimitedRecourse ad.builder.aset ad.coefs ad.intercept x a 1 ad.builder.maxItems := by
    intro a
    rw [e1, e2, e8, hoff.isLimited, e5.isLimited, hoff.numActionable]
  obtain ⟨p1, p2, p3⟩ := C53_first_partial hso hlog ho' hAr hc hreg hdc hp
  have main : (row.feasible = some true ∧ fs'.items ≠ [] ∨ row.feasible = some false ∧ fs'.items = []) ∧
      (ct = .max → ∀ i rest, fs'.items = i :: rest → ∃ v u, row.cost = .fin v ∧ i.cost = .fin u ∧
      ∀ γ, CostStep ext c x γ → |v - u| < γ) := by
    rcases (C45_entries hso hlog ho hr hT hX hrow).2 hno with ⟨q1, q2, q3⟩ | ⟨q1, a, cs, v, q2, q3, q4, q5, q6, q7, q8, q9⟩
    · have he : fs'.items = [] := by
        rcases hi : fs'.items with _ | ⟨i, rest⟩
        · rfl
        · obtain ⟨v, a, cs, -, -, -, r1, -⟩ := p1 i (by rw [hi]; simp)
          exact absurd ⟨a, (hlim a).mp r1⟩ (q3 hreg' hda)
      exact ⟨Or.inr ⟨q1, he⟩, fun _ i rest hi => by rw [he] at hi; cases hi⟩
    · have hra : IsLimitedRecourse ad.builder.aset ad.coefs ad.intercept x a 1 ad.builder.maxItems := by
        refine ⟨?_, q8 hreg'⟩
        have := q4
        rw [e7] at this
        exact this
      have hne : fs'.items ≠ [] := fun hi => p2 hi ⟨a, (hlim a).mpr hra⟩
      refine ⟨Or.inl ⟨q1, hne⟩, fun hct i rest hi => ?_⟩
      subst hct
      obtain ⟨u, a', cs', r1, -, -, r2, r3, -, r4⟩ := p1 i (by rw [hi]; simp)
      obtain ⟨u', s1, -, s2⟩ := p3 i rest hi
      rw [r1] at s1; cases s1
      refine ⟨v, u, q2, r1, fun γ hγ => abs_lt.mpr ⟨?_, ?_⟩⟩
      · have := s2 rfl a cs v ((hlim a).mpr hra) (hoff.actionCosts.mpr (e5.actionCosts.mp q5)) q6 q7 γ hγ
        linarith
      · have := q9 hreg' hda a' cs' u ((hlim a').mp r2) (e5.actionCosts.mpr (hoff.actionCosts.mp r3)) (r4 rfl).1 (r4 rfl).2 γ
          (hγ.transfer hcoff (by rw [e3, g2]) (by rw [e6, g4]))
        linarith
  obtain ⟨m1, m2⟩ := main
  refine ⟨?_, ?_, m2⟩
  · rcases m1 with ⟨h1, h2⟩ | ⟨h1, h2⟩ <;> simp [h1, h2]
  · rcases m1 with ⟨h1, h2⟩ | ⟨h1, h2⟩ <;> simp [h1, h2]

/-- Non-vacuity of C84: two binary features, `w = (1, 2)`, at the denied point `(0, 0)`; with the intercept
`-1` there is recourse, with `-4` there is none.  The audit of two denied persons and one other succeeds, so does
the enumeration. -/
theorem C84_example (be : Backend) (ct : CostType) (t : ℚ) (ht : t = -1 ∨ t = -4) :
    ∃ (A : ActionSet ℚ) (ad : Auditor ℚ) (c : Builder ℚ), A.Reachable exExt ∧ mkAuditor be A [1, 2] t = .ok ad ∧
    (A.yDesired : ℚ) * (dot [1, 2] [0, 0] + t) < 0 ∧ mkBuilder be ct A [1, 2] t = .ok c ∧ Regular exExt c [0, 0] ∧
    ∀ o : Oracle ℚ, o.Exact →
      (∃ ad' T, ad.audit exExt o [("p", [0, 0]), ("q", [1, 1]), ("r", [0, 0])] A.yDesired = (ad', .ok T)) ∧
      ∃ fs' : Flipset ℚ, (mkFlipset be A [0, 0] [1, 2] t none).populate exExt o 5 none
        .distinctSubsets ct = some (fs', .ok ()) ∧ (fs'.items = [] ↔ t = -4) := by
  have key : ∀ be ct, ∀ t ∈ [(-1 : ℚ), -4], ∃ A : ActionSet ℚ, exSet [[0, 0], [1, 1]] ["a", "b"] = .ok A ∧
      ((A.yDesired : ℚ) * (dot [1, 2] [0, 0] + t) < 0 ∧ numActionable A = 2 ∧ A.yDesired = 1) ∧
      ∃ ad : Auditor ℚ, mkAuditor be A [1, 2] t = .ok ad ∧ (ad.builder.setX exExt [0, 0]).2 = .ok () ∧
      (ad.builder.setX exExt [1, 1]).2 = .ok () ∧
      ad.coefs.length = 2 ∧ ¬ HasOutcome 1 ad.coefs ad.intercept [0, 0] ∧
      ∃ b0 : Builder ℚ, mkBuilder be ct A [1, 2] t = .ok b0 ∧
      regularB exExt b0 [0, 0] = true ∧ Denied b0 [0, 0] ∧
      (b0.setX exExt [0, 0]).2 = .ok () ∧
      (admitted (b0.buildArgs [0, 0] (b0.setX exExt [0, 0]).1.feats) (fun _ => true) = [] ↔ t = -4) := by
    intro be ct; cases be <;> cases ct <;> decide +kernel
  obtain ⟨A, hA, ⟨hd, hna, hy⟩, ad, h1, h2, h3, h4, h5, c, hc, hrg, hdn, hx, hk⟩ := key be ct t (by simpa using ht)
  have hAr : A.Reachable exExt := .mk hA
  have hr : c.Reachable exExt := .mk hAr hc
  have hreg := regular_of_b hr.ok exExt_pos hrg
  have hadr : ad.Reachable exExt := .mk hAr h1
  refine ⟨A, ad, c, hAr, h1, hd, hc, hreg, fun o ho => ⟨?_, ?_⟩⟩
  · rw [hy]
    refine C46_succeeds_partial hadr ?_ (Or.inl rfl) ⟨("p", [0, 0]), by simp, h5⟩ ?_
    · intro p hp; simp at hp; rcases hp with rfl | rfl | rfl <;> simp [h4]
    · intro p hp _
      simp at hp
      rcases hp with rfl | rfl | rfl
      · exact h2
      · exact h3
      · exact h2
  · obtain ⟨fs', b1, b', l, k1, k2, k3, k4⟩ := first_populate exExt_order ho.1 hAr hc hx
      (fun _ h2 => (denied_differs hAr.wf.y hd h2.score).2) .distinctSubsets none (by simp)
    obtain ⟨p1, p2⟩ := k2 5 (by rw [hna]; decide)
    refine ⟨fs', p1, ?_⟩
    obtain ⟨q1, q2, -⟩ := C53_first_partial exExt_order exExt_log ho hAr hc hreg hdn p1
    obtain ⟨feats, g1, g2, g3⟩ := Posed.setX exExt_order hr.ok k1
    rw [k1, show b1.feats = feats from g3.feats] at hk
    obtain ⟨e1, e2, e3, -, -, -, e7⟩ := mkBuilder_offers hAr hc
    rw [← hk]
    constructor
    · intro hi
      by_contra hne
      obtain ⟨κ, hκ⟩ := List.exists_mem_of_ne_nil _ hne
      have hrec := choice_limited exExt_order hr.ok g1 hreg (admitted_ok hκ).1
      rw [e2, e3, e7] at hrec
      exact q2 hi ⟨_, e1.isLimited.mp hrec⟩
    · intro hne
      by_contra hi
      obtain ⟨i, hi⟩ := List.exists_mem_of_ne_nil _ hi
      obtain ⟨v, a, cs, -, -, -, r1, -⟩ := q1 i hi
      have r2 : IsLimitedRecourse c.aset c.coefs c.intercept [0, 0] a 1 c.maxItems := by
        rw [e2, e3, e7]; exact e1.isLimited.mpr r1
      obtain ⟨κ, hκ, -⟩ := exchange exExt_order hr.ok exExt_log g1 hreg hdn r2
      obtain ⟨κ', this, -⟩ := hκ.admitted (p := c.buildArgs [0, 0] feats) g2
      rw [hne] at this
      cases this

end Recourse
