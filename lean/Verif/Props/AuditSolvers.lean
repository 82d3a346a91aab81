import Verif.Props.Solvers
import Verif.Props.Agree
import Verif.Props.Ends

/-!
# Audits by two solvers (C95)
-/

set_option linter.unusedSectionVars false

namespace Recourse

variable {K : Type} [Field K] [LinearOrder K] [IsStrictOrderedRing K] [FloorRing K]
  {ext : Ext K} {o o' : Oracle K} {be be' : Backend} {A A' A1 A1' : ActionSet K} {w x : List K} {t : K}
  {ad0 ad adc ad0' ad' : Auditor K} {ι : Type}

theorem fillCache_flip (e : Elem K) : (e.fillCache ext).flip = e.flip := by
  obtain ⟨c, hc⟩ := fillCache_eq ext e
  rw [hc]

theorem fillCache_setFlip (e : Elem K) (f : Int) :
    ({ e with flip := some f } : Elem K).fillCache ext = { e.fillCache ext with flip := some f } := by
  have ht : ({ e with flip := some f } : Elem K).table ext = e.table ext := rfl
  unfold Elem.fillCache
  rw [ht]
  cases e.table ext <;> rfl

theorem norm_elem {B C : ActionSet K} (h : B.norm ext = C.norm ext) {j : ℕ} {e : Elem K} (he : B.elems[j]? = some e) :
    ∃ e', C.elems[j]? = some e' ∧ e'.fillCache ext = e.fillCache ext := by
  have hE : B.elems.map (fun e => e.fillCache ext) = C.elems.map (fun e => e.fillCache ext) := congrArg ActionSet.elems h
  have h1 : (B.elems.map fun e => e.fillCache ext)[j]? = some (e.fillCache ext) := by
    rw [List.getElem?_map, he]; rfl
  rw [hE, List.getElem?_map] at h1
  exact Option.map_eq_some_iff.mp h1

/-- Aligning a set that is (up to cached percentiles) the same, or the same already aligned, gives the same. -/
theorem align_norm (hA : A.Reachable ext) (hA' : A'.Reachable ext) (h1 : A.setAlignment w = .ok A1)
    (h : A'.norm ext = A.norm ext ∨ A'.norm ext = A1.norm ext) (h2 : A'.setAlignment w = .ok A1') :
    A1'.norm ext = A1.norm ext := by
  obtain ⟨B, k1, -, k0, k3, k4, k5, k6, k7⟩ := (C12_alignment hA w).1 (setAlignment_ok h1).1
  rw [h1] at k1
  have k1 := Except.ok.inj k1
  subst k1
  obtain ⟨B', l1, -, l0, l3, l4, l5, l6, l7⟩ := (C12_alignment hA' w).1 (setAlignment_ok h2).1
  rw [h2] at l1
  have l1 := Except.ok.inj l1
  subst l1
  have hsame : ∀ {C : ActionSet K}, A'.norm ext = C.norm ext → A'.names = C.names ∧ A'.cons = C.cons ∧
      A'.yDesired = C.yDesired ∧ A'.extra = C.extra ∧ A'.elems.length = C.elems.length := by
    intro C hC
    refine ⟨?_, ?_, ?_, ?_, ?_⟩
    · have := congrArg ActionSet.names hC; exact this
    · have := congrArg ActionSet.cons hC; exact this
    · have := congrArg ActionSet.yDesired hC; exact this
    · have := congrArg ActionSet.extra hC; exact this
    · have := congrArg (fun A : ActionSet K => A.elems.length) hC
      simpa [ActionSet.norm] using this
  have hparts : A'.names = A.names ∧ A'.cons = A.cons ∧ A'.yDesired = A.yDesired ∧ A'.extra = A.extra ∧
      A'.elems.length = A.elems.length := by
    rcases h with h | h
    · exact hsame h
    · obtain ⟨q1, q2, q3, q4, q5⟩ := hsame h
      exact ⟨q1.trans k4, q2.trans k5, q3.trans k6, q4.trans k7, q5.trans k0⟩
  obtain ⟨p1, p2, p3, p4, p5⟩ := hparts
  have hwl : w.length = A.elems.length := by
    rw [(setAlignment_ok h1).1, ← hA.wf.names, List.length_map]
  have hel : A1'.elems.map (fun e => e.fillCache ext) = A1.elems.map (fun e => e.fillCache ext) := by
    refine List.ext_getElem? fun j => ?_
    rw [List.getElem?_map, List.getElem?_map]
    by_cases hj : j < A.elems.length
    · have hw := List.getElem?_eq_getElem (l := w) (i := j) (by omega)
      have he := List.getElem?_eq_getElem hj
      have he' := List.getElem?_eq_getElem (l := A'.elems) (i := j) (by omega)
      have q := k3 j _ _ he hw
      have q' := l3 j _ _ he' hw
      rw [q, q', Option.map_some, Option.map_some, p3]
      congr 1
      rw [fillCache_setFlip, fillCache_setFlip]
      rcases h with h | h
      · obtain ⟨e, r1, r2⟩ := norm_elem h he'
        rw [he] at r1
        rw [Option.some.inj r1, r2]
      · obtain ⟨e, r1, r2⟩ := norm_elem h he'
        rw [q] at r1
        rw [← r2, ← Option.some.inj r1, fillCache_setFlip]
    · rw [List.getElem?_eq_none (by omega), List.getElem?_eq_none (by omega)]
  unfold ActionSet.norm
  have e1 : A1'.names = A1.names := l4.trans (p1.trans k4.symm)
  have e2 : A1'.cons = A1.cons := l5.trans (p2.trans k5.symm)
  have e3 : A1'.yDesired = A1.yDesired := l6.trans (p3.trans k6.symm)
  have e4 : A1'.extra = A1.extra := l7.trans (p4.trans k7.symm)
  cases A1'; cases A1
  simp only at *
  subst e1 e2 e3 e4
  simp only [ActionSet.mk.injEq, true_and, and_true]
  exact hel

/-- The builder of a new auditor. -/
theorem mkAuditor_mkBuilder (hA : A.Reachable ext) (h : mkAuditor be A w t = .ok ad) :
    ∃ A1, A.setAlignment w = .ok A1 ∧ A1.Reachable ext ∧ A1.alignmentKnown = true ∧
      mkBuilder be .max A1 w t = .ok ad.builder ∧ ad.builder.aset = A1 := by
  unfold mkAuditor at h
  obtain ⟨A1, h1, h⟩ := bind_ok_iff.mp h
  obtain ⟨b, h2, h⟩ := bind_ok_iff.mp h
  have hk := setAlignment_known h1
  rw [← Except.ok.inj h]
  refine ⟨A1, h1, hA.align h1, hk, h2, ?_⟩
  have h3 := mkBuilder_aligned h2
  unfold AlignedWith at h3
  rw [if_pos hk] at h3
  exact h3

/-- Audits change neither the classifier nor the setup of the builder. -/
theorem Auditor.Audited.parts (hr : ad0.Reachable ext) (hu : Auditor.Audited ext ad0 ad) :
    ad.Reachable ext ∧ ad.coefs = ad0.coefs ∧ ad.intercept = ad0.intercept ∧ SameSetup ext ad0.builder ad.builder := by
  induction hu with
  | refl => exact ⟨hr, rfl, rfl, .refl ext _⟩
  | @audit ι ad o X y _ ih =>
    obtain ⟨i1, i2, i3, i4⟩ := ih
    refine ⟨.audit o X y i1, ?_⟩
    cases hh : ad.audit ext o X y with
    | mk ad' res =>
      cases res with
      | error er =>
        obtain ⟨q1, q2, -⟩ := audit_error i1.inv.1 hh
        rw [q2]
        exact ⟨i2, i3, i4.trans (q1.setup i1.inv.1).2⟩
      | ok T =>
        obtain ⟨-, -, -, q1, q2, -⟩ := audit_ok i1.inv.1 hh
        rw [q2]
        exact ⟨i2, i3, i4.trans (q1.setup i1.inv.1).2⟩

/-- Two auditors for the same classifier and action set pose the same programs. -/
theorem auditors_setup (hA : A.Reachable ext) (h : mkAuditor be A w t = .ok ad0) (hu : Auditor.Audited ext ad0 ad)
    (huc : Auditor.Audited ext ad0 adc) (hA' : A' = A ∨ A' = adc.builder.aset) (h' : mkAuditor be' A' w t = .ok ad0') (hu' : Auditor.Audited ext ad0' ad') :
    ad.Reachable ext ∧ ad'.Reachable ext ∧ ad.coefs = w ∧ ad'.coefs = w ∧ ad.intercept = t ∧ ad'.intercept = t ∧
    SameSetup ext ad.builder { ad'.builder with backend := ad.builder.backend } := by
  obtain ⟨r0, c0, t0, -⟩ := mkAuditor_parts hA h
  obtain ⟨r1, c1, t1, s1⟩ := hu.parts r0
  obtain ⟨rc, -, -, sc⟩ := huc.parts r0
  have hAr' : A'.Reachable ext := by
    rcases hA' with rfl | rfl
    · exact hA
    · exact rc.inv.1.ok.aset
  obtain ⟨r0', c0', t0', -⟩ := mkAuditor_parts hAr' h'
  obtain ⟨r1', c1', t1', s1'⟩ := hu'.parts r0'
  refine ⟨r1, r1', c1.trans c0, c1'.trans c0', t1.trans t0, t1'.trans t0', ?_⟩
  obtain ⟨B, b1, b2, b3, b4, b5⟩ := mkAuditor_mkBuilder hA h
  obtain ⟨B', b1', b2', b3', b4', b5'⟩ := mkAuditor_mkBuilder hAr' h'
  have hn : B'.norm ext = B.norm ext := by
    refine align_norm hA hAr' b1 ?_ b1'
    rcases hA' with rfl | rfl
    · exact Or.inl rfl
    · right; rw [sc.aset, b5]
  have ht : Touched ext B w B' := ⟨b2', Or.inr ⟨B, by unfold AlignedWith; rw [if_pos b3], hn⟩⟩
  have hs := touched_setup b2 ht b4 b4'
  exact ⟨rfl, s1'.coefs.trans (hs.coefs.trans s1.coefs.symm), s1'.intercept.trans (hs.intercept.trans s1.intercept.symm),
    s1'.varNames.trans (hs.varNames.trans s1.varNames.symm), s1'.costType.trans (hs.costType.trans s1.costType.symm),
    s1'.minItems.trans (hs.minItems.trans s1.minItems.symm), s1'.maxItems.trans (hs.maxItems.trans s1.maxItems.symm),
    s1'.aset.trans (hs.aset.trans s1.aset.symm)⟩

/-- Builders that differ in the back end and in cached percentiles accept the same points. -/
theorem setup_accepts (hso : SetOrderOk ext) {b c : Builder K} (hc : c.Reachable ext)
    (hs : SameSetup ext b { c with backend := b.backend }) (x : List K) : (c.setX ext x).2 = (b.setX ext x).2 := by
  rw [← (hs.assign x).1]
  have h := (C30_backends (x := x) hso hc rfl rfl).1
  have e : ∀ d : Backend, c.backend = d → c = { c with backend := d } := by
    rintro _ rfl; rfl
  rcases hb : b.backend with _ | _ <;> rcases hd : c.backend with _ | _ <;> rw [← e _ hd] at h
  · rw [← e _ hd]
  · exact h.symm
  · exact h
  · rw [← e _ hd]

/-- The cost in an audit is the cost of a change. -/
theorem someMoveCost_of {b : Builder K} {a cs : List K} {c : K} (hlen : x.length = b.aset.elems.length)
    (hp : PermittedAction b.aset x a) (hac : ActionCosts ext b.costType b.aset x a cs) (hc : c ∈ cs) (hc0 : c ≠ 0) :
    SomeMoveCost ext b x c := by
  obtain ⟨j, hj, rfl⟩ := List.mem_iff_getElem.mp hc
  have hjx : j < x.length := by rw [← hac.1]; exact hj
  have hja : j < a.length := by rw [hp.1]; exact hjx
  have hje : j < b.aset.elems.length := by rw [← hlen]; exact hjx
  obtain ⟨c1, c2⟩ := hac.2 j _ _ _ _ (List.getElem?_eq_getElem hje) (List.getElem?_eq_getElem hjx)
    (List.getElem?_eq_getElem hja) (List.getElem?_eq_getElem hj)
  have hne : a[j] ≠ 0 := fun h => hc0 (c1 h)
  exact ⟨j, _, _, _, List.getElem?_eq_getElem hje, List.getElem?_eq_getElem hjx,
    hp.2 j _ _ _ (List.getElem?_eq_getElem hje) (List.getElem?_eq_getElem hjx)
    (List.getElem?_eq_getElem hja), by simpa using hne, c2 hne⟩

/-- **C95** (partial).  Two auditors for the same classifier and the same action set, in any states of
use, the second one created before or after any audits by the first one, with any back ends and solvers: an audit of the same data by the one
succeeds exactly if it does by the other.  With exact solvers the entries of a person agree, whichever data
she appears in: both are NaN, or both infeasible at infinite cost, or both feasible at costs that, in regular situations and for
denied points, differ by less than every cost step, and are equal if distinct costs of changes are at least a
cost step apart.  Missing from the full property: equality of the costs without this condition, which is false
(`C95_cost_refuted`). -/
theorem C95_audits_partial (hso : SetOrderOk ext) (hA : A.Reachable ext) (h : mkAuditor be A w t = .ok ad0)
    (hu : Auditor.Audited ext ad0 ad) (huc : Auditor.Audited ext ad0 adc) (hA' : A' = A ∨ A' = adc.builder.aset)
    (h' : mkAuditor be' A' w t = .ok ad0') (hu' : Auditor.Audited ext ad0' ad') :
    (∀ (X : List (ι × List K)) (y : Int),
      (∃ ad1 T, ad.audit ext o X y = (ad1, .ok T)) ↔ ∃ ad1 T, ad'.audit ext o' X y = (ad1, .ok T)) ∧
    (LogOk ext → o.Exact → o'.Exact → ∀ {X X' : List (ι × List K)} {T T' : List (ι × AuditRow K)} {y : Int} {ad1 ad2 : Auditor K},
      ad.audit ext o X y = (ad1, .ok T) → ad'.audit ext o' X' y = (ad2, .ok T') →
      ∀ {k k' : ℕ} {l l' m m' : ι} {x : List K} {row row' : AuditRow K}, X[k]? = some (l, x) → X'[k']? = some (l', x) →
        T[k]? = some (m, row) → T'[k']? = some (m', row') →
        m = l ∧ m' = l' ∧
        (row = ⟨none, .nan⟩ ∧ row' = ⟨none, .nan⟩ ∨ row = ⟨some false, .inf⟩ ∧ row' = ⟨some false, .inf⟩ ∨
        ∃ v v', row = ⟨some true, .fin v⟩ ∧ row' = ⟨some true, .fin v'⟩ ∧
          (Regular ext ad0.builder x → Denied ad0.builder x → ∀ γ, CostStep ext ad0.builder x γ → |v - v'| < γ ∧
            ((∀ g g', SomeMoveCost ext ad0.builder x g → SomeMoveCost ext ad0.builder x g' → g < g' → γ ≤ g' - g) →
              v = v')))) := by
  obtain ⟨r1, r1', c1, c1', t1, t1', hs⟩ := auditors_setup hA h hu huc hA' h' hu'
  have hacc := setup_accepts hso r1'.inv.1 hs
  constructor
  · intro X y
    constructor
    · rintro ⟨ad1, T, hT⟩
      obtain ⟨q1, q2, ⟨p, hp, hp'⟩, -, -, g, -, hg⟩ := audit_ok r1.inv.1 hT
      refine C46_succeeds_partial r1' (by rw [c1', ← c1]; exact q1) q2 ⟨p, hp, ?_⟩ fun p hp hn => ?_
      · rw [c1', t1', ← c1, ← t1]; exact (selected_iff ..).mp hp'
      · rw [c1', t1', ← c1, ← t1] at hn
        obtain ⟨n, b1, b', i, e1, -⟩ := (hg p hp).2 ((selected_iff ..).mpr hn)
        rw [hacc, e1]
    · rintro ⟨ad1, T, hT⟩
      obtain ⟨q1, q2, ⟨p, hp, hp'⟩, -, -, g, -, hg⟩ := audit_ok r1'.inv.1 hT
      refine C46_succeeds_partial r1 (by rw [c1, ← c1']; exact q1) q2 ⟨p, hp, ?_⟩ fun p hp hn => ?_
      · rw [c1, t1, ← c1', ← t1']; exact (selected_iff ..).mp hp'
      · rw [c1, t1, ← c1', ← t1'] at hn
        obtain ⟨n, b1, b', i, e1, -⟩ := (hg p hp).2 ((selected_iff ..).mpr hn)
        rw [← hacc, e1]
  · intro hlog ho ho' X X' T T' y ad1 ad2 hT hT' k k' l l' m m' x row row' hX hX' hk hk'
    have lab : ∀ {ad ad1 : Auditor K} {o : Oracle K} {X : List (ι × List K)} {T : List (ι × AuditRow K)} {k : ℕ} {l m : ι}
        {row : AuditRow K}, ad.Reachable ext → ad.audit ext o X y = (ad1, .ok T) → X[k]? = some (l, x) →
        T[k]? = some (m, row) → m = l := by
      intro ad ad1 o X T k l m row hr hT hX hk
      have := congrArg (fun L => L[k]?) (C44_rows hr hT).1
      simp only [List.getElem?_map, hX, hk, Option.map_some, Option.some.injEq] at this
      exact this
    refine ⟨lab r1 hT hX hk, lab r1' hT' hX' hk', ?_⟩
    obtain ⟨e1, e2⟩ := C45_entries hso hlog ho r1 hT hX hk
    obtain ⟨f1, f2⟩ := C45_entries hso hlog ho' r1' hT' hX' hk'
    rw [c1, t1] at e1 e2
    rw [c1', t1'] at f1 f2
    obtain ⟨ef, ec⟩ := row
    obtain ⟨ff, fc⟩ := row'
    by_cases hh : HasOutcome y w t x
    · obtain ⟨q1, q2⟩ := e1 hh
      obtain ⟨s1, s2⟩ := f1 hh
      simp only at q1 q2 s1 s2
      subst q1 q2 s1 s2
      exact Or.inl ⟨rfl, rfl⟩
    · right
      have hfeas : ef = ff := by
        have g := (audit_entry r1 hT hX hk).2 (by rw [c1, t1]; exact hh)
        have g' := (audit_entry r1' hT' hX' hk').2 (by rw [c1', t1']; exact hh)
        obtain ⟨n, b1, b', i, hb, hf, hi⟩ := g
        obtain ⟨n', d1, d', i', hd, hf', hi'⟩ := g'
        obtain ⟨feats, h1, h2, h3⟩ := Posed.setX hso r1.inv.1.ok hb
        obtain ⟨feats', h1', h2', h3'⟩ := Posed.setX hso r1'.inv.1.ok hd
        have hfe : feats' = feats := by
          have e : ad'.builder.buildInfo ext x = ad.builder.buildInfo ext x := hs.buildInfo x
          rw [e, h1] at h1'
          exact (Except.ok.inj h1').symm
        subst hfe
        have hp : ad'.builder.buildArgs x feats' = ad.builder.buildArgs x feats' := hs.buildArgs x feats'
        have hn : ad'.builder.coefs.length = ad.builder.coefs.length := congrArg List.length hs.coefs
        rw [hp, hn] at h3'
        have := (posed_same h2 h2 h3 h3' (ho.at n) (ho'.at n') (fun _ => Iff.rfl) rfl (fun _ _ => rfl)).1
        obtain ⟨-, -, rfl⟩ := fit_ok hf
        obtain ⟨-, -, rfl⟩ := fit_ok hf'
        have a1 := congrArg AuditRow.feasible hi
        have a2 := congrArg AuditRow.feasible hi'
        simp only at a1 a2
        rw [a1, a2, this]
      subst hfeas
      rcases e2 hh with ⟨q1, q2, -⟩ | ⟨q1, a, cs, v, q2, q3, q4, q5, q6, q7, q8, q9⟩ <;>
        rcases f2 hh with ⟨s1, s2, -⟩ | ⟨s1, a', cs', v', s2, s3, s4, s5, s6, s7, s8, s9⟩
      · simp only at q1 q2 s2
        subst q1 q2 s2
        exact Or.inl ⟨rfl, rfl⟩
      · simp only at q1 s1; rw [q1] at s1; cases s1
      · simp only at q1 s1; rw [q1] at s1; cases s1
      · right
        simp only at q1 q2 s2
        subst q1 q2 s2
        refine ⟨v, v', rfl, rfl, fun hreg hden γ hγ => ?_⟩
        obtain ⟨r0, g1, g2, g3, g4, g5, g6, g7, g8, g9, g10⟩ := mkAuditor_parts hA h
        obtain ⟨-, -, -, s0⟩ := hu.parts r0
        -- what the three builders offer
        have n1 : ad.builder.aset.norm ext = ad0.builder.aset.norm ext := s0.aset
        have n2 : ad'.builder.aset.norm ext = ad0.builder.aset.norm ext := by
          have : ad'.builder.aset.norm ext = ad.builder.aset.norm ext := hs.aset
          rw [this, n1]
        have key : ∀ {b : Builder K}, b.aset.norm ext = ad0.builder.aset.norm ext → b.coefs = ad0.builder.coefs →
            b.intercept = ad0.builder.intercept →
            b.costType = ad0.builder.costType → b.minItems = 0 →
            Regular ext b x ∧ Denied b x ∧ CostStep ext b x γ ∧ SameOffers ext ad0.builder.aset b.aset := by
          intro b hn hw hi hct hmin
          have hoff : SameOffers ext ad0.builder.aset b.aset := .norm hn
          refine ⟨?_, ?_, hγ.transfer hoff hw hct, hoff⟩
          · refine Regular.transfer hoff ?_ hw (by rw [hct, g6]; simp) (by rw [hmin]; exact Nat.zero_le _)
              (fun j e c he hc => ?_) hreg
            · rw [g3, g9, g5.elems.length_eq]
            · rw [hw, g3] at hc
              obtain ⟨e', k1, k2⟩ := norm_elem hn he
              rw [← fillCache_flip (ext := ext), ← k2, fillCache_flip, g10 j e' c k1 hc, hoff.y, g5.y]
          · unfold Denied at hden ⊢
            rw [hoff.y, hw, hi]; exact hden
        have w1 : ad.builder.coefs = ad0.builder.coefs := s0.coefs
        have w2 : ad'.builder.coefs = ad0.builder.coefs := by
          have : ad'.builder.coefs = ad.builder.coefs := hs.coefs
          rw [this, w1]
        have i1 : ad.builder.intercept = ad0.builder.intercept := s0.intercept
        have i2 : ad'.builder.intercept = ad0.builder.intercept := by
          have : ad'.builder.intercept = ad.builder.intercept := hs.intercept
          rw [this, i1]
        have ct1 : ad.builder.costType = ad0.builder.costType := s0.costType
        have ct2 : ad'.builder.costType = ad0.builder.costType := by
          have : ad'.builder.costType = ad.builder.costType := hs.costType
          rw [this, ct1]
        have m1 : ad.builder.minItems = 0 := s0.minItems.trans g7
        have m2 : ad'.builder.minItems = 0 := by
          have : ad'.builder.minItems = ad.builder.minItems := hs.minItems
          rw [this, m1]
        have M12 : ad'.builder.maxItems = ad.builder.maxItems := hs.maxItems
        obtain ⟨x1, x2, x3, x4⟩ := key n1 w1 i1 ct1 m1
        obtain ⟨y1, y2, y3, y4⟩ := key n2 w2 i2 ct2 m2
        have hoo : SameOffers ext ad.builder.aset ad'.builder.aset := x4.symm.trans y4
        have hra : IsLimitedRecourse ad.builder.aset w t x a 1 ad.builder.maxItems := by
          rw [m1] at q4
          exact ⟨q4, q8 x1⟩
        have hra' : IsLimitedRecourse ad'.builder.aset w t x a' 1 ad'.builder.maxItems := by
          rw [m2] at s4
          exact ⟨s4, s8 y1⟩
        have b1 := q9 x1 x2 a' cs' v' (by rw [← M12]; exact hoo.isLimited.mp hra') (hoo.actionCosts.mp s5) s6 s7 γ x3
        have b2 := s9 y1 y2 a cs v (by rw [M12]; exact hoo.isLimited.mpr hra) (hoo.actionCosts.mpr q5) q6 q7 γ y3
        refine ⟨abs_lt.mpr ⟨by linarith, by linarith⟩, fun hsep => ?_⟩
        have hxl : x.length = ad0.builder.aset.elems.length := by
          have hl := (audit_ok r1.inv.1 hT).1 _ (List.mem_of_getElem? hX)
          rw [c1] at hl
          rw [hl, g9, g5.elems.length_eq]
        have hv : SomeMoveCost ext ad0.builder x v := by
          refine someMoveCost_of (a := a) (cs := cs) hxl (x4.isLimited.mp hra).permitted ?_ q6 q3.ne'
          rw [g6]; exact x4.actionCosts.mp q5
        have hv' : SomeMoveCost ext ad0.builder x v' := by
          refine someMoveCost_of (a := a') (cs := cs') hxl (y4.isLimited.mp hra').permitted ?_ s6 s3.ne'
          rw [g6]; exact y4.actionCosts.mp s5
        rcases lt_trichotomy v v' with hlt | heq | hlt
        · have := hsep v v' hv hv' hlt
          linarith
        · exact heq
        · have := hsep v' v hv' hv hlt
          linarith

end Recourse
