import Verif.Props.Later
import Verif.Props.FlipUse
import Verif.Props.Reads
import Verif.Props.Percent
import Verif.Props.FlipEx
import Verif.Lemmas.Exec

/-!
# Using an action set does not change it (C81)
-/

set_option linter.unusedSectionVars false

namespace Recourse

variable {K : Type} [Field K] [LinearOrder K] [IsStrictOrderedRing K] [FloorRing K]

variable {ext : Ext K} {A A1 : ActionSet K} {w x : List K} {t : K} {be : Backend} {ct : CostType}
  {o : Oracle K} {b b0 : Builder K}

/-! ## Specification -/

/-- Two features cannot be told apart: all attributes read the same, the same values are offered, and
percentiles are the same. -/
structure LooksSame (ext : Ext K) (e e' : Elem K) : Prop where
  attrs : ∀ n, e'.getAttr n = e.getAttr n
  offers : ∀ x acts drop, e'.feasibleValues x acts drop = e.feasibleValues x acts drop
  pct : ∀ v, e'.percentile ext v = e.percentile ext v

/-- Two action sets cannot be told apart: the same features, outcome, subset limits, and attributes of the set. -/
structure LooksSameSet (ext : Ext K) (A A' : ActionSet K) : Prop where
  names : A'.names = A.names
  y : A'.yDesired = A.yDesired
  cons : A'.cons = A.cons
  attrs : ∀ n, A'.getAttr n = A.getAttr n
  features : List.Forall₂ (LooksSame ext) A.elems A'.elems

/-- The action set after a classifier with coefficients `w` was first used with it: itself if it was aligned,
otherwise aligned with `w` (C12 says what that means). -/
def AlignedWith (A : ActionSet K) (w : List K) (A1 : ActionSet K) : Prop :=
  if A.alignmentKnown = true then A1 = A else A.setAlignment w = .ok A1

/-! ## Proofs -/

theorem looksSame_fill (e : Elem K) : LooksSame ext (e.fillCache ext) e := by
  obtain ⟨c, hc⟩ := fillCache_eq ext e
  refine ⟨fun n => ?_, fun x r d => ?_, fun v => (C56_stable ext e v).symm⟩
  · rw [hc]; rfl
  · rw [hc]; rfl

theorem LooksSame.symm {e e' : Elem K} (h : LooksSame ext e e') : LooksSame ext e' e :=
  ⟨fun n => (h.attrs n).symm, fun x r d => (h.offers x r d).symm, fun v => (h.pct v).symm⟩

theorem LooksSame.trans {e e' e'' : Elem K} (h : LooksSame ext e e') (g : LooksSame ext e' e'') :
    LooksSame ext e e'' :=
  ⟨fun n => (g.attrs n).trans (h.attrs n), fun x r d => (g.offers x r d).trans (h.offers x r d),
    fun v => (g.pct v).trans (h.pct v)⟩

theorem norm_alignmentKnown (A : ActionSet K) : (A.norm ext).alignmentKnown = A.alignmentKnown := by
  unfold ActionSet.alignmentKnown ActionSet.norm
  dsimp only
  rw [List.all_map]
  congr 1
  funext e
  obtain ⟨c, hc⟩ := fillCache_eq ext e
  rw [Function.comp, hc]; rfl

theorem norm_getAttr (A : ActionSet K) (n : String) : (A.norm ext).getAttr n = A.getAttr n := by
  have hk := norm_alignmentKnown (ext := ext) A
  have hm : (A.norm ext).elems.mapM (fun e => e.getAttr n) = A.elems.mapM fun e => e.getAttr n := by
    unfold ActionSet.norm
    dsimp only
    rw [List.mapM_map]
    congr 1
    funext e
    exact ((looksSame_fill (ext := ext) e).attrs n).symm
  unfold ActionSet.getAttr
  rw [hk, hm]
  rfl

theorem looksSame_norm {A A' : ActionSet K} (h : A'.norm ext = A.norm ext) : LooksSameSet ext A A' := by
  have e1 := congrArg ActionSet.names h
  have e2 := congrArg ActionSet.yDesired h
  have e3 := congrArg ActionSet.cons h
  have e4 : A'.elems.map (Elem.fillCache ext) = A.elems.map (Elem.fillCache ext) := congrArg ActionSet.elems h
  refine ⟨e1, e2, e3, fun n => ?_, ?_⟩
  · rw [← norm_getAttr (ext := ext) A' n, h, norm_getAttr]
  · have key : ∀ l l' : List (Elem K), l'.map (Elem.fillCache ext) = l.map (Elem.fillCache ext) →
        List.Forall₂ (LooksSame ext) l l' := by
      intro l
      induction l with
      | nil =>
        intro l' hl
        rw [List.map_nil, List.map_eq_nil_iff] at hl
        rw [hl]; exact .nil
      | cons e l ih =>
        intro l' hl
        cases l' with
        | nil => simp at hl
        | cons e' l' =>
          rw [List.map_cons, List.map_cons, List.cons.injEq] at hl
          refine .cons ?_ (ih l' hl.2)
          have h1 := (looksSame_fill (ext := ext) e).symm
          rw [← hl.1] at h1
          exact h1.trans (looksSame_fill e')
    exact key _ _ e4

theorem mkBuilder_aligned (h : mkBuilder be ct A w t = .ok b) : AlignedWith A w b.aset := by
  have := (mkBuilder_parts h).1
  unfold AlignedWith
  by_cases hk : A.alignmentKnown = true
  · rw [if_pos hk] at this ⊢
    exact (Except.ok.inj this).symm
  · rw [if_neg hk] at this ⊢
    exact this

/-- **C81**, builders: after a builder was made for an action set and used in any way (points assigned successfully or
not, fits, enumerations, with any solvers), the set looks as it did before, except that a set that was not
aligned is now aligned with the classifier. -/
theorem C81_builder (hA : A.Reachable ext) (h : mkBuilder be ct A w t = .ok b0) (hu : b0.Used ext b) :
    ∃ A1, AlignedWith A w A1 ∧ LooksSameSet ext A1 b.aset :=
  ⟨b0.aset, mkBuilder_aligned h, looksSame_norm (hu.setup (.mk hA h)).2.aset⟩

/-- Audits only, one after the other, with any data, outcomes and solvers. -/
inductive Auditor.Audited (ext : Ext K) (ad0 : Auditor K) : Auditor K → Prop
  | refl : Auditor.Audited ext ad0 ad0
  | audit {ι : Type} {ad : Auditor K} (o : Oracle K) (X : List (ι × List K)) (y : Int)
      (hr : Auditor.Audited ext ad0 ad) : Auditor.Audited ext ad0 (ad.audit ext o X y).1

/-- **C81**, audits: making an auditor aligns the action set with the classifier; any audits afterwards,
successful or not, leave it as it looked then. -/
theorem C81_auditor {ad0 ad : Auditor K} (hA : A.Reachable ext) (h : mkAuditor be A w t = .ok ad0)
    (hu : Auditor.Audited ext ad0 ad) : ∃ A1, A.setAlignment w = .ok A1 ∧ LooksSameSet ext A1 ad.builder.aset := by
  have h0 : ∃ A1, A.setAlignment w = .ok A1 ∧ ad0.builder.aset = A1 := by
    unfold mkAuditor at h
    obtain ⟨A1, h1, h⟩ := bind_ok_iff.mp h
    obtain ⟨b, h2, h⟩ := bind_ok_iff.mp h
    refine ⟨A1, h1, ?_⟩
    rw [← Except.ok.inj h]
    dsimp only
    have h3 := mkBuilder_aligned h2
    unfold AlignedWith at h3
    by_cases hk : A1.alignmentKnown = true
    · rw [if_pos hk] at h3; exact h3
    · rw [if_neg hk] at h3
      obtain ⟨A2, k1, k2, -⟩ := (C12_alignment hA w).1 (setAlignment_ok h1).1
      rw [h1] at k1
      rw [← Except.ok.inj k1] at k2
      exact absurd k2 hk
  obtain ⟨A1, h1, h2⟩ := h0
  refine ⟨A1, h1, looksSame_norm ?_⟩
  rw [← h2]
  have key : ad.Reachable ext ∧ ad.builder.aset.norm ext = ad0.builder.aset.norm ext := by
    induction hu with
    | refl => exact ⟨.mk hA h, rfl⟩
    | @audit ι ad o X y _ ih =>
      refine ⟨.audit o X y ih.1, ?_⟩
      rw [← ih.2]
      cases hh : ad.audit ext o X y with
      | mk ad' res =>
        cases res with
        | error er => exact ((audit_error ih.1.inv.1 hh).1.setup ih.1.inv.1).2.aset
        | ok T => exact ((audit_ok ih.1.inv.1 hh).2.2.2.1.setup ih.1.inv.1).2.aset
  exact key.2

theorem AlignedWith.known (hA : A.Reachable ext) (h : AlignedWith A w A1) :
    A1.alignmentKnown = true := by
  unfold AlignedWith at h
  by_cases hk : A.alignmentKnown = true
  · rw [if_pos hk] at h; rw [h]; exact hk
  · rw [if_neg hk] at h
    obtain ⟨A2, k1, k2, -⟩ := (C12_alignment hA w).1 (setAlignment_ok h).1
    rw [h] at k1
    rw [← Except.ok.inj k1] at k2
    exact k2

/-- The action set of a flipset in use is `A`, or `A` aligned with `w` and possibly percentiles computed. -/
def Touched (ext : Ext K) (A : ActionSet K) (w : List K) (A' : ActionSet K) : Prop :=
  A'.Reachable ext ∧ (A' = A ∨ ∃ A1, AlignedWith A w A1 ∧ A'.norm ext = A1.norm ext)

theorem Touched.build {A' : ActionSet K} {c : Builder K} (hA : A.Reachable ext) (h : Touched ext A w A')
    (hc : mkBuilder be ct A' w t = .ok c) : Touched ext A w (c.setX ext x).1.aset := by
  have hcr : c.Reachable ext := .mk h.1 hc
  obtain ⟨g1, g2⟩ := (Builder.Used.setX x (.refl)).setup (b := (c.setX ext x).1) hcr
  refine ⟨g1.ok.aset, Or.inr ?_⟩
  have h3 := mkBuilder_aligned hc
  rcases h.2 with rfl | ⟨A1, k1, k2⟩
  · exact ⟨c.aset, h3, g2.aset⟩
  · refine ⟨A1, k1, ?_⟩
    have hk : A'.alignmentKnown = true := by
      rw [← norm_alignmentKnown (ext := ext) A', k2, norm_alignmentKnown]
      exact k1.known hA
    unfold AlignedWith at h3
    rw [if_pos hk] at h3
    rw [g2.aset, h3, k2]

/-- What use of a flipset does to its action set. -/
theorem flipset_touched {fs : Flipset K} (hA : A.Reachable ext)
    (hu : (mkFlipset be A x w t none).Used ext o fs) : fs.coefs = w ∧ Touched ext A w fs.aset := by
  induction hu with
  | refl => exact ⟨rfl, hA, Or.inl rfl⟩
  | @populate fs fs' fuel total et ct r hr h ih =>
    have made : ∀ (A' : ActionSet K) (b0 : Builder K), fs.Made ext ct A' b0 → Touched ext A w A' := by
      rintro A' b0 (⟨-, rfl⟩ | ⟨-, c, h2, h3, rfl⟩)
      · exact ih.2
      · rw [ih.1] at h2
        have := ih.2.build (x := fs.x) hA h2
        rw [h3] at this; exact this
    rcases populate_cases h with ⟨er, h1, rfl, -⟩ | ⟨er, c, b0, h1, hn, h2, h3, rfl⟩ | ⟨er, A', b0, h1, hm, -, rfl⟩ |
      ⟨er, A', b0, b, infos, h1, hm, hp, -, rfl⟩ | ⟨A', b0, b, infos, h1, hm, hp, ha⟩
    · exact ih
    · refine ⟨ih.1, ?_⟩
      rw [ih.1] at h2
      have := ih.2.build (x := fs.x) hA h2
      rw [h3] at this; exact this
    · exact ⟨ih.1, made A' b0 hm⟩
    · exact ⟨ih.1, made A' b0 hm⟩
    · obtain ⟨-, rfl⟩ := flipAdd_ok ha
      by_cases hl : infos.isEmpty = true
      · rw [if_pos hl]; exact ⟨ih.1, made A' b0 hm⟩
      · rw [if_neg hl]
        unfold Flipset.resort
        split_ifs <;> exact ⟨ih.1, made A' b0 hm⟩
  | @sortBy fs fs' cols inplace hr h ih =>
    unfold Flipset.sort at h
    by_cases hc : cols.isEmpty = true
    · rw [if_pos hc] at h; cases h
    rw [if_neg hc] at h
    cases h
    unfold Flipset.resort
    split_ifs <;> exact ih
  | resort hr ih =>
    unfold Flipset.resort
    split_ifs <;> exact ih
  | flat hr ih =>
    unfold Flipset.toFlat Flipset.resort
    dsimp only
    split_ifs <;> exact ih

/-- **C81**, flipsets: after any use of a flipset for an action set, the set looks as before, or as before but aligned with
the classifier. -/
theorem C81_flipset {fs : Flipset K} (hA : A.Reachable ext)
    (hu : (mkFlipset be A x w t none).Used ext o fs) :
    ∃ A1, (A1 = A ∨ AlignedWith A w A1) ∧ LooksSameSet ext A1 fs.aset := by
  have key := flipset_touched hA hu
  rcases key.2.2 with h | ⟨A1, h1, h2⟩
  · exact ⟨A, Or.inl rfl, by rw [h]; exact looksSame_norm rfl⟩
  · exact ⟨A1, Or.inr h1, looksSame_norm h2⟩

/-! ## Later changes -/

/-- Attribute assignments `A.attr = v` (`none`) and `A[name].attr = v`, one after the other; failing ones are
ignored by the caller. -/
def assignAll (A : ActionSet K) : List (Option String × String × PyVal K) → ActionSet K
  | [] => A
  | (none, attr, v) :: l => assignAll (A.setAttr attr v).1 l
  | (some n, attr, v) :: l => assignAll (A.setElemAttr n attr v).1 l

theorem setAttr_cache (e : Elem K) (c : Option (Table K)) (attr : String) (v : PyVal K) :
    ({ e with cache := c } : Elem K).setAttr attr v =
      (e.setAttr attr v).map fun e' => { e' with cache := c } := by
  unfold Elem.setAttr
  cases attrOf attr <;> dsimp only
  · cases parseActionable v <;> rfl
  · cases parseVType e.values v <;> rfl
  · cases parseBounds e.values v <;> rfl
  · unfold Elem.setLb
    dsimp only
    cases e.bounds.btype <;> dsimp only
    · cases mkBound (.str "absolute") v (.flt e.bounds.ub) (some e.values) none <;> rfl
    · cases mkBound (.str "percentile") v (.flt e.bounds.qub) (some e.values) none <;> rfl
  · unfold Elem.setUb
    dsimp only
    cases e.bounds.btype <;> dsimp only
    · cases mkBound (.str "absolute") (.flt e.bounds.lb) v (some e.values) none <;> rfl
    · cases mkBound (.str "percentile") (.flt e.bounds.qlb) v (some e.values) none <;> rfl
  · cases scalarNum v <;> rfl
  · cases parseStepType (K := K) v <;> rfl
  · cases scalarNum v <;> rfl
  · cases parseStepSize e.stepType v <;> rfl
  · rfl
  · rfl
  · rfl

theorem setAttr_keeps {e e' : Elem K} {attr : String} {v : PyVal K} (h : e.setAttr attr v = .ok e') :
    e'.values = e.values ∧ e'.grid = e.grid ∧ e'.cache = e.cache ∧ e'.name = e.name := by
  unfold Elem.setAttr at h
  cases ha : attrOf attr <;> rw [ha] at h <;> dsimp only at h
  case lb =>
    unfold Elem.setLb at h
    cases hb : e.bounds.btype <;> rw [hb] at h <;> dsimp only at h <;>
      (obtain ⟨_, -, h⟩ := bind_ok_iff.mp h; cases h; exact ⟨rfl, rfl, rfl, rfl⟩)
  case ub =>
    unfold Elem.setUb at h
    cases hb : e.bounds.btype <;> rw [hb] at h <;> dsimp only at h <;>
      (obtain ⟨_, -, h⟩ := bind_ok_iff.mp h; cases h; exact ⟨rfl, rfl, rfl, rfl⟩)
  case boundType => cases h
  case readonly => cases h
  case plain => cases h; exact ⟨rfl, rfl, rfl, rfl⟩
  all_goals (obtain ⟨_, -, h⟩ := bind_ok_iff.mp h; cases h; exact ⟨rfl, rfl, rfl, rfl⟩)

theorem fillCache_setAttr (e : Elem K) (attr : String) (v : PyVal K) :
    (e.fillCache ext).setAttr attr v = (e.setAttr attr v).map (Elem.fillCache ext) := by
  have key : ∀ c, e.fillCache ext = { e with cache := c } →
      (∀ e' : Elem K, e'.values = e.values → e'.grid = e.grid → e'.cache = e.cache →
        e'.fillCache ext = { e' with cache := c }) →
      (e.fillCache ext).setAttr attr v = (e.setAttr attr v).map (Elem.fillCache ext) := by
    intro c h1 h2
    rw [h1, setAttr_cache]
    cases h : e.setAttr attr v with
    | error er => rfl
    | ok e' =>
      obtain ⟨k1, k2, k3, -⟩ := setAttr_keeps h
      change Except.ok _ = Except.ok _
      rw [h2 e' k1 k2 k3]
  have htab : ∀ e' : Elem K, e'.values = e.values → e'.grid = e.grid → e'.cache = e.cache →
      e'.table ext = e.table ext := by
    intro e' h1 h2 h3
    unfold Elem.table Elem.freshTable Elem.newTable
    rw [h1, h2, h3]
  cases ht : e.table ext with
  | ok t =>
    refine key (some t) ?_ fun e' h1 h2 h3 => ?_
    · unfold Elem.fillCache; rw [ht]
    · unfold Elem.fillCache; rw [htab e' h1 h2 h3, ht]
  | error er =>
    refine key e.cache ?_ fun e' h1 h2 h3 => ?_
    · unfold Elem.fillCache; rw [ht]
    · unfold Elem.fillCache; rw [htab e' h1 h2 h3, ht, ← h3]

theorem assignLoop_norm (attr : String) (l : List (Elem K)) (vs : List (PyVal K)) :
    assignLoop attr (l.map (Elem.fillCache ext)) vs =
      ((assignLoop attr l vs).1.map (Elem.fillCache ext), (assignLoop attr l vs).2) := by
  induction l generalizing vs with
  | nil => cases vs <;> rfl
  | cons e l ih =>
    cases vs with
    | nil => rfl
    | cons v vs =>
      rw [List.map_cons]
      unfold assignLoop
      rw [fillCache_setAttr]
      cases h : e.setAttr attr v with
      | error er => rfl
      | ok e' =>
        change (_, _) = (_, _)
        dsimp only [Except.map]
        rw [ih]; rfl

theorem setYDesired_norm (A : ActionSet K) (y : Int) :
    (A.norm ext).setYDesired y = (A.setYDesired y).map (ActionSet.norm ext) := by
  unfold ActionSet.setYDesired
  by_cases h0 : y = -1 ∨ y = 0 ∨ y = 1
  · have h1 : pyAssert (decide (y = -1 ∨ y = 0 ∨ y = 1)) = .ok () := by rw [decide_eq_true h0]; rfl
    rw [h1]
    change (if y ≠ A.yDesired then _ else _) = Except.map _ (if y ≠ A.yDesired then _ else _)
    by_cases hy : y ≠ A.yDesired
    · rw [if_pos hy, if_pos hy]
      have hk := norm_alignmentKnown (ext := ext) { A with yDesired := if 0 < y then 1 else -1 }
      change ({ A.norm ext with yDesired := _ } : ActionSet K).alignmentKnown = _ at hk
      dsimp only
      rw [hk]
      by_cases hk' : ({ A with yDesired := if 0 < y then 1 else -1 } : ActionSet K).alignmentKnown = true
      · rw [if_pos hk', if_pos hk']
        change Except.ok _ = Except.ok _
        congr 1
        unfold ActionSet.norm
        dsimp only
        rw [List.map_map, List.map_map]
        congr 1
        apply List.map_congr_left
        intro e _
        change (e.fillCache ext).setFlip _ = (e.setFlip _).fillCache ext
        have ht : ∀ f, (e.setFlip f).table ext = e.table ext := fun f => rfl
        unfold Elem.fillCache
        rw [ht]
        cases e.table ext <;> rfl
      · rw [if_neg hk', if_neg hk']; rfl
    · rw [if_neg hy, if_neg hy]; rfl
  · have h1 : pyAssert (decide (y = -1 ∨ y = 0 ∨ y = 1)) = .error .assertion := by rw [decide_eq_false h0]; rfl
    rw [h1]; rfl

theorem setAttr_norm (A : ActionSet K) (attr : String) (v : PyVal K) :
    (A.norm ext).setAttr attr v = ((A.setAttr attr v).1.norm ext, (A.setAttr attr v).2) := by
  unfold ActionSet.setAttr
  by_cases h1 : hasElemAttr attr = true
  · rw [if_pos h1, if_pos h1]
    change (match expandValues A.names.length v with | .error er => _ | .ok vs => _) = _
    cases expandValues A.names.length v with
    | error er => rfl
    | ok vs =>
      dsimp only
      have := assignLoop_norm (ext := ext) attr A.elems vs
      change ({ A with elems := (assignLoop attr (A.elems.map (Elem.fillCache ext)) vs).1 },
        (assignLoop attr (A.elems.map (Elem.fillCache ext)) vs).2) = _
      rw [this]; rfl
  · rw [if_neg h1, if_neg h1]
    by_cases h2 : attr = "y_desired"
    · rw [if_pos h2, if_pos h2]
      cases yValue v with
      | none => rfl
      | some y =>
        dsimp only
        rw [setYDesired_norm]
        cases A.setYDesired y <;> rfl
    · rw [if_neg h2, if_neg h2]; cases plainAttr attr v <;> rfl

theorem setElemAttr_norm (A : ActionSet K) (n attr : String) (v : PyVal K) :
    (A.norm ext).setElemAttr n attr v = ((A.setElemAttr n attr v).1.norm ext, (A.setElemAttr n attr v).2) := by
  unfold ActionSet.setElemAttr
  rw [elem?_norm]
  cases A.elem? n with
  | none => rfl
  | some e =>
    change (match (e.fillCache ext).setAttr attr v with | .ok e' => _ | .error er => _) = _
    rw [fillCache_setAttr]
    dsimp only
    cases e.setAttr attr v with
    | error er => rfl
    | ok e' =>
      change ({ A with elems := (A.elems.map (Elem.fillCache ext)).set (A.names.idxOf n) (e'.fillCache ext) }, _) = _
      rw [← List.map_set]; rfl

theorem assignAll_norm (A : ActionSet K) (l : List (Option String × String × PyVal K)) :
    assignAll (A.norm ext) l = (assignAll A l).norm ext := by
  induction l generalizing A with
  | nil => rfl
  | cons a l ih =>
    obtain ⟨_ | n, attr, v⟩ := a
    · change assignAll ((A.norm ext).setAttr attr v).1 l = _
      rw [setAttr_norm]; exact ih _
    · change assignAll ((A.norm ext).setElemAttr n attr v).1 l = _
      rw [setElemAttr_norm]; exact ih _

/-- **C81**, later assignments (partial): attributes assigned after the set was used in a builder have the effect they
have on a set that was only aligned, and succeed or fail alike (`r`).  Missing from the full property:
`update_grid()`, after which a used set has outdated percentiles (`C81_later_refuted`). -/
theorem C81_later_partial (hA : A.Reachable ext) (h : mkBuilder be ct A w t = .ok b0) (hu : b0.Used ext b)
    (l : List (Option String × String × PyVal K)) :
    ∃ A1, AlignedWith A w A1 ∧ LooksSameSet ext (assignAll A1 l) (assignAll b.aset l) ∧
    (∀ attr v, ((assignAll b.aset l).setAttr attr v).2 = ((assignAll A1 l).setAttr attr v).2) ∧
    ∀ n attr v, ((assignAll b.aset l).setElemAttr n attr v).2 = ((assignAll A1 l).setElemAttr n attr v).2 := by
  have hn := (hu.setup (.mk hA h)).2.aset
  have hl : (assignAll b.aset l).norm ext = (assignAll b0.aset l).norm ext := by
    rw [← assignAll_norm, ← assignAll_norm, hn]
  refine ⟨b0.aset, mkBuilder_aligned h, looksSame_norm hl, fun attr v => ?_, fun n attr v => ?_⟩
  · have h1 := congrArg Prod.snd (setAttr_norm (ext := ext) (assignAll b.aset l) attr v)
    have h2 := congrArg Prod.snd (setAttr_norm (ext := ext) (assignAll b0.aset l) attr v)
    rw [hl] at h1
    exact h1.symm.trans h2
  · have h1 := congrArg Prod.snd (setElemAttr_norm (ext := ext) (assignAll b.aset l) n attr v)
    have h2 := congrArg Prod.snd (setElemAttr_norm (ext := ext) (assignAll b0.aset l) n attr v)
    rw [hl] at h1
    exact h1.symm.trans h2

/-- `A["a"].ub = 10` and `update_grid()` for all features. -/
def widened (A : ActionSet ℚ) : Except Err (ActionSet ℚ) := do
  let A1 := (A.setElemAttr "a" "ub" (.int 10)).1
  let es ← A1.elems.mapM Elem.updateGrid
  .ok { A1 with elems := es }

set_option synthInstance.maxHeartbeats 400000 in
set_option synthInstance.maxSize 4000 in
/-- The full C81 is false: the same later change of the bounds (`ub = 10` and `update_grid()`) has another effect on a
set that was used before.  `A` offers 0, 1, 2 and is already aligned.  If the change comes first, a builder
accepts the point `[0]`; if a builder was given the point `[0]` before, the next builder raises
`AssertionError` for the same point, although the sets offer the same values. -/
theorem C81_later_refuted (be : Backend) (ct : CostType) : ∃ A0 : ActionSet ℚ,
    mkActionSet [[0], [2]] ["a"] 1 [] (.tuple [.int 0, .int 2]) (.str "absolute") = .ok A0 ∧
    ∃ A, A0.setAlignment [1] = .ok A ∧ ∃ b0, mkBuilder be ct A [1] (-3) = .ok b0 ∧ ((b0.setX exExt [0]).2 = .ok () ∧
    b0.aset.alignmentKnown = true) ∧
    ∃ A2, widened A = .ok A2 ∧ ∃ A3, widened (b0.setX exExt [0]).1.aset = .ok A3 ∧
      (A2.elems.map (fun e => e.grid.vals) = [[0, 1, 2, 3, 4, 5, 6, 7, 8, 9, 10]] ∧
       A3.elems.map (fun e => e.grid.vals) = [[0, 1, 2, 3, 4, 5, 6, 7, 8, 9, 10]]) ∧
      ∃ b2, mkBuilder be ct A2 [1] (-3) = .ok b2 ∧ ∃ b3, mkBuilder be ct A3 [1] (-3) = .ok b3 ∧
      ((b2.setX exExt [0]).2 = .ok () ∧ (b3.setX exExt [0]).2 = .error .assertion) := by
  cases be <;> cases ct <;> decide +kernel

/-- Non-vacuity of C81: an unaligned set, a builder for `a - 1`, and a point it accepts; computing the percentiles
changed the state of the set, and an assignment afterwards succeeds. -/
theorem C81_example (be : Backend) (ct : CostType) : ∃ A : ActionSet ℚ, exSet [[0], [1]] ["a"] = .ok A ∧
    A.alignmentKnown = false ∧ A.Reachable exExt ∧ ∃ b0 : Builder ℚ, mkBuilder be ct A [1] (-1) = .ok b0 ∧
    b0.Used exExt (b0.setX exExt [0]).1 ∧ (b0.setX exExt [0]).2 = .ok () ∧
    (b0.setX exExt [0]).1.aset.elems.map (fun e => e.cache.isSome) = [true] ∧
    b0.aset.elems.map (fun e => e.cache.isSome) = [false] ∧
    ((b0.setX exExt [0]).1.aset.setElemAttr "a" "ub" (.int 5)).2 = .ok () := by
  have key : ∀ be ct, ∃ A : ActionSet ℚ, exSet [[0], [1]] ["a"] = .ok A ∧
    A.alignmentKnown = false ∧ ∃ b0 : Builder ℚ, mkBuilder be ct A [1] (-1) = .ok b0 ∧
    ((b0.setX exExt [0]).2 = .ok () ∧
    (b0.setX exExt [0]).1.aset.elems.map (fun e => e.cache.isSome) = [true] ∧
    b0.aset.elems.map (fun e => e.cache.isSome) = [false] ∧
    ((b0.setX exExt [0]).1.aset.setElemAttr "a" "ub" (.int 5)).2 = .ok ()) := by
    intro be ct; cases be <;> cases ct <;> decide +kernel
  obtain ⟨A, h1, h2, b0, h3, h4, h5, h6, h7⟩ := key be ct
  exact ⟨A, h1, h2, .mk h1, b0, h3, .setX _ .refl, h4, h5, h6, h7⟩

end Recourse
