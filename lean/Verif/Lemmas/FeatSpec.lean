import Verif.Lemmas.History
import Verif.Props.Values

/-! # Usable features in terms of the specification -/

set_option linter.unusedSectionVars false

namespace Recourse

variable {K : Type} [Field K] [LinearOrder K] [IsStrictOrderedRing K] [FloorRing K]

variable {ext : Ext K} {b : Builder K} {x : List K} {f : Feat K} {e : Elem K} {xj : K} {t : Table K} {T : List K}

/-- `drop_suboptimal` as used for a feature. -/
abbrev dropOf (b : Builder K) (f : Feat K) : Bool := decide (f.name ∉ b.aset.cons.flatNames)

/-- Cost function of a usable feature. -/
abbrev fCost (ext : Ext K) (b : Builder K) (f : Feat K) (e : Elem K) (xj : K) (t : Table K) (v : K) : K :=
  stepCost ext b.costType t.eval xj (buildOrder (e.feasX xj (dropOf b f)) xj).1 v

theorem FeatSpec.reachable (hb : BuilderOK ext b) (h : FeatSpec ext b x f e xj t T) : e.Reachable ext :=
  hb.aset.wf.elems e (List.mem_of_getElem? h.elem)

theorem FeatSpec.x_mem (h : FeatSpec ext b x f e xj t T) : xj ∈ e.feasX xj (dropOf b f) := by
  rw [← mem_buildOrder (xj := xj), h.order]; exact List.mem_cons_self ..

theorem FeatSpec.fits (hb : BuilderOK ext b) (h : FeatSpec ext b x f e xj t T) (ha : e.actionable = true) :
    FitsGrid e xj := by
  intro hi
  by_contra hx
  exact not_fits_mem (h.reachable hb).inv.2 ha hi hx (mem_feasX_base.mp h.x_mem).1

theorem FeatSpec.feasX_nodup (hb : BuilderOK ext b) (h : FeatSpec ext b x f e xj t T) :
    (e.feasX xj (dropOf b f)).Pairwise (· < ·) :=
  feasX_pairwise (h.reachable hb).inv.2.2 (h.fits hb)

theorem FeatSpec.mem_feas (hb : BuilderOK ext b) (h : FeatSpec ext b x f e xj t T) (v : K) :
    v ∈ e.feasX xj (dropOf b f) ↔ Permitted e xj v ∧ KeepFlip e (dropOf b f) xj v :=
  mem_feasX (h.fits hb)

theorem FeatSpec.mem_T (hb : BuilderOK ext b) (h : FeatSpec ext b x f e xj t T) (v : K) :
    v ∈ T ↔ v ≠ xj ∧ Permitted e xj v ∧ KeepFlip e (dropOf b f) xj v := by
  have hnd : (xj :: T).Nodup := by
    rw [← h.order]
    have := (h.feasX_nodup hb).imp (fun hab => ne_of_lt hab)
    unfold buildOrder
    split_ifs
    · exact List.nodup_reverse.mpr this
    · exact this
  have hm : v ∈ xj :: T ↔ v ∈ e.feasX xj (dropOf b f) := by rw [← h.order]; exact mem_buildOrder
  rw [h.mem_feas hb, List.mem_cons] at hm
  rw [List.nodup_cons] at hnd
  constructor
  · intro hv
    exact ⟨fun he => hnd.1 (he ▸ hv), hm.mp (Or.inr hv)⟩
  · rintro ⟨h1, h2⟩
    rcases hm.mpr h2 with h3 | h3
    · exact absurd h3 h1
    · exact h3

/-- The offered moves of a usable feature. -/
theorem FeatSpec.offered (hb : BuilderOK ext b) (h : FeatSpec ext b x f e xj t T) {k : ℕ}
    (hk : 0 < k) (hl : k < f.actions.length) : ∃ v, v ≠ xj ∧ Permitted e xj v ∧ KeepFlip e (dropOf b f) xj v ∧
      isBug (v - xj) (fCost ext b f e xj t v) = false ∧ f.actions.getD k 0 = v - xj ∧
      f.costs.getD k 0 = fCost ext b f e xj t v := by
  have ha := h.actions
  have hc := h.costs
  set L := T.filter fun v => !isBug (v - xj) (stepCost ext b.costType t.eval xj
      (buildOrder (e.feasX xj (decide (f.name ∉ b.aset.cons.flatNames))) xj).1 v) with hL
  obtain ⟨k, rfl⟩ : ∃ k', k = k' + 1 := ⟨k - 1, by omega⟩
  rw [ha] at hl ⊢
  rw [hc]
  simp only [List.length_cons, List.length_map] at hl
  have hl' : k < L.length := by omega
  refine ⟨L[k], ?_⟩
  have hm : L[k] ∈ L := List.getElem_mem hl'
  have hm := List.mem_filter.mp hm
  obtain ⟨h1, h2, h3⟩ := (h.mem_T hb _).mp hm.1
  refine ⟨h1, h2, h3, Bool.not_eq_true' _ |>.mp hm.2, ?_, ?_⟩
  · rw [List.getD_cons_succ, List.getD_eq_getElem _ _ (by simpa using hl'), List.getElem_map]
  · rw [List.getD_cons_succ, List.getD_eq_getElem _ _ (by simpa using hl'), List.getElem_map]

/-- Conversely, every such value is offered at some position. -/
theorem FeatSpec.position (hb : BuilderOK ext b) (h : FeatSpec ext b x f e xj t T) {v : K} (hv : v ≠ xj)
    (hp : Permitted e xj v) (hk : KeepFlip e (dropOf b f) xj v)
    (hbug : isBug (v - xj) (fCost ext b f e xj t v) = false) :
    ∃ k, 0 < k ∧ k < f.actions.length ∧ f.actions.getD k 0 = v - xj ∧
      f.costs.getD k 0 = fCost ext b f e xj t v := by
  have ha := h.actions
  have hc := h.costs
  set L := T.filter fun v => !isBug (v - xj) (stepCost ext b.costType t.eval xj
      (buildOrder (e.feasX xj (decide (f.name ∉ b.aset.cons.flatNames))) xj).1 v) with hL
  have hm : v ∈ L := by
    rw [hL, List.mem_filter]
    exact ⟨(h.mem_T hb v).mpr ⟨hv, hp, hk⟩, (Bool.not_eq_true' _).mpr hbug⟩
  obtain ⟨k, hl', he⟩ := List.mem_iff_getElem.mp hm
  refine ⟨k + 1, by omega, ?_, ?_, ?_⟩
  · rw [ha]; simpa using hl'
  · rw [ha, List.getD_cons_succ, List.getD_eq_getElem _ _ (by simpa using hl'), List.getElem_map, he]
  · rw [hc, List.getD_cons_succ, List.getD_eq_getElem _ _ (by simpa using hl'), List.getElem_map, he]

/-- The action of a choice is permitted. -/
theorem FeatSpec.permitted (hb : BuilderOK ext b) (h : FeatSpec ext b x f e xj t T) {κ : ℕ → ℕ}
    (hκ : κ f.idx < f.actions.length) : Permitted e xj (xj + f.act κ) := by
  rcases Nat.eq_zero_or_pos (κ f.idx) with h0 | h0
  · left
    unfold Feat.act
    rw [h0, h.actions]; simp
  · obtain ⟨v, -, hp, -, -, ha, -⟩ := h.offered hb h0 hκ
    unfold Feat.act
    rw [ha, add_sub_cancel]; exact hp

theorem FeatSpec.percentile (h : FeatSpec ext b x f e xj t T) (v : K) : e.percentile ext v = .ok (t.eval v) := by
  unfold Elem.percentile; rw [h.table]; rfl

/-- A positive step cost is the cost of the move, whichever direction was used to compute it. -/
theorem stepCost_moveCost {ct : CostType} (hlog : LogOk ext) {P : K → K} {u v : K} {up : Bool}
    (h1 : ct = .loc → P u < 1 ∧ P v < 1) (hpos : 0 < stepCost ext ct P u up v) :
    stepCost ext ct P u up v =
      if ct = .loc then ext.log ((1 - min (P u) (P v)) / (1 - max (P u) (P v))) else |P v - P u| := by
  unfold stepCost at hpos ⊢
  by_cases hl : ct = .loc
  · obtain ⟨hu, hv⟩ := h1 hl
    have hu' : 0 < 1 - P u := by linarith
    have hv' : 0 < 1 - P v := by linarith
    simp only [if_pos hl] at hpos ⊢
    cases up with
    | true =>
      simp only [if_true] at hpos ⊢
      have := (hlog _ (div_pos hu' hv')).mp hpos
      rw [one_lt_div hv'] at this
      rw [min_eq_left (by linarith), max_eq_right (by linarith)]
    | false =>
      simp only [Bool.false_eq_true, if_false] at hpos ⊢
      have := (hlog _ (div_pos hv' hu')).mp hpos
      rw [one_lt_div hu'] at this
      rw [min_eq_right (by linarith), max_eq_left (by linarith)]
  · simp only [if_neg hl] at hpos ⊢
    cases up with
    | true =>
      simp only [if_true] at hpos ⊢
      rw [abs_of_pos hpos]
    | false =>
      simp only [Bool.false_eq_true, if_false] at hpos ⊢
      rw [abs_of_neg (by linarith)]; ring

theorem isBug_false {a c : K} (h : isBug a c = false) : 0 < c ∧ isClose a 0 = false := by
  unfold isBug at h
  simp only [Bool.or_eq_false_iff, decide_eq_false_iff_not, not_le] at h
  exact h

/-- The cost of a choice is the cost of the move. -/
theorem FeatSpec.moveCost (hb : BuilderOK ext b) (h : FeatSpec ext b x f e xj t T) (hlog : LogOk ext)
    (hp : b.costType = .loc → ∀ v p, e.percentile ext v = .ok p → p < 1) {κ : ℕ → ℕ}
    (hκ : κ f.idx < f.actions.length) (h0 : κ f.idx ≠ 0) :
    MoveCost ext b.costType e xj (xj + f.act κ) (f.cst κ) := by
  obtain ⟨v, -, -, -, hbug, ha, hc⟩ := h.offered hb (Nat.pos_of_ne_zero h0) hκ
  have hpos := (isBug_false hbug).1
  refine ⟨t.eval xj, t.eval v, h.percentile xj, ?_, ?_⟩
  · unfold Feat.act; rw [ha, add_sub_cancel]; exact h.percentile v
  · unfold Feat.cst
    rw [hc]
    exact stepCost_moveCost hlog (fun hl => ⟨hp hl _ _ (h.percentile _), hp hl _ _ (h.percentile _)⟩) hpos

variable {feats : List (Feat K)} {κ : ℕ → ℕ}

/-- A choice that satisfies the program is recourse. -/
theorem choice_isRecourse (hso : SetOrderOk ext) (hb : BuilderOK ext b) (h : b.buildInfo ext x = .ok feats)
    (hκ : ChoiceOK (b.buildArgs x feats) κ) :
    IsRecourse b.aset b.coefs b.intercept x (actVec b.coefs.length feats κ) (max b.minItems 1) b.maxItems := by
  obtain ⟨-, hxl, hspec, -⟩ := buildInfo_spec hso hb h
  have hok := buildInfo_ok hso hb h
  have hlen : (actVec b.coefs.length feats κ).length = x.length := by
    rw [actVec_length, hxl, hb.coefs]
  refine ⟨⟨hlen, ?_⟩, ?_, ?_, ?_⟩
  · intro j e xj aj he hx ha
    by_cases hf : ∃ f ∈ feats, f.idx = j
    · obtain ⟨f, hf, rfl⟩ := hf
      obtain ⟨e', xj', t, T, hs⟩ := hspec f hf
      have h1 := hs.elem; rw [he] at h1; cases h1
      have h2 := hs.val; rw [hx] at h2; cases h2
      have h3 := put_feat hok (fun f => f.act κ) hf
      change (actVec b.coefs.length feats κ)[f.idx]? = _ at h3
      rw [ha] at h3; cases h3
      exact hs.permitted hb (hκ.lt f hf)
    · push Not at hf
      have hj : j < b.coefs.length := by
        rw [← actVec_length b.coefs.length feats κ]
        exact (List.getElem?_eq_some_iff.mp ha).1
      have h3 := put_other (n := b.coefs.length) (fun f : Feat K => f.act κ) hj hf
      change (actVec b.coefs.length feats κ)[j]? = _ at h3
      rw [ha] at h3; cases h3
      left; simp
  · unfold numChanged; rw [actVec_countP hok hκ.lt]; exact hκ.lo
  · unfold numChanged; rw [actVec_countP hok hκ.lt]; exact hκ.hi
  · have hs := hκ.score
    have hd : dot b.coefs (vadd x (actVec b.coefs.length feats κ)) + b.intercept
        = b.score x + choiceGain feats κ := by
      rw [dot_vadd _ _ _ hlen.symm, actVec_dot hok rfl (fun f hf => by
        obtain ⟨_, _, _, _, hs⟩ := hspec f hf
        exact hs.coef)]
      unfold Builder.score; ring
    unfold ReachesScore
    rw [hd]
    exact hs

/-- The costs of a choice. -/
theorem choice_actionCosts (hso : SetOrderOk ext) (hb : BuilderOK ext b) (h : b.buildInfo ext x = .ok feats)
    (hlog : LogOk ext)
    (hp : b.costType = .loc → ∀ e ∈ b.aset.elems, ∀ v p, e.percentile ext v = .ok p → p < 1)
    (hκ : Choice feats κ) :
    ActionCosts ext b.costType b.aset x (actVec b.coefs.length feats κ) (cstVec b.coefs.length feats κ) := by
  obtain ⟨-, hxl, hspec, -⟩ := buildInfo_spec hso hb h
  have hok := buildInfo_ok hso hb h
  refine ⟨by rw [cstVec_length, hxl, hb.coefs], ?_⟩
  intro j e xj aj c he hx ha hc
  by_cases hf : ∃ f ∈ feats, f.idx = j
  · obtain ⟨f, hf, rfl⟩ := hf
    obtain ⟨e', xj', t, T, hs⟩ := hspec f hf
    have h1 := hs.elem; rw [he] at h1; cases h1
    have h2 := hs.val; rw [hx] at h2; cases h2
    have h3 := put_feat hok (fun f => f.act κ) hf
    change (actVec b.coefs.length feats κ)[f.idx]? = _ at h3
    rw [ha] at h3; cases h3
    have h4 := put_feat hok (fun f => f.cst κ) hf
    change (cstVec b.coefs.length feats κ)[f.idx]? = _ at h4
    rw [hc] at h4; cases h4
    have hz := hok.act_zero hf hκ
    constructor
    · intro h0
      exact (hok.cst_pos hf hκ).1 (hz.mp h0)
    · intro h0
      exact hs.moveCost hb hlog (fun hl => hp hl e (List.mem_of_getElem? he)) (hκ f hf) (fun hh => h0 (hz.mpr hh))
  · push Not at hf
    have hj : j < b.coefs.length := by
      rw [← actVec_length b.coefs.length feats κ]
      exact (List.getElem?_eq_some_iff.mp ha).1
    have h3 := put_other (n := b.coefs.length) (fun f : Feat K => f.act κ) hj hf
    change (actVec b.coefs.length feats κ)[j]? = _ at h3
    rw [ha] at h3; cases h3
    have h4 := put_other (n := b.coefs.length) (fun f : Feat K => f.cst κ) hj hf
    change (cstVec b.coefs.length feats κ)[j]? = _ at h4
    rw [hc] at h4; cases h4
    exact ⟨fun _ => rfl, fun h => absurd rfl h⟩

end Recourse
