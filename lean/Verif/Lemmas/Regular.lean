import Verif.Lemmas.Exchange
import Verif.Lemmas.Exec

/-!
# When situations are regular

A sufficient condition for `Regular`, and its evaluation on concrete builders.
-/

set_option linter.unusedSectionVars false

namespace Recourse

variable {K : Type} [Field K] [LinearOrder K] [IsStrictOrderedRing K] [FloorRing K]

variable {ext : Ext K} {b : Builder K} {x : List K}

theorem headD_le_of_sorted {l : List K} (h : l.Pairwise (· < ·)) {v : K} (hv : v ∈ l) : l.headD 0 ≤ v := by
  cases l with
  | nil => simp at hv
  | cons a t =>
    rcases List.mem_cons.mp hv with rfl | hv
    · exact le_refl _
    · exact ((List.pairwise_cons.mp h).1 v hv).le

theorem le_getLastD_of_sorted {l : List K} (h : l.Pairwise (· < ·)) {v : K} (hv : v ∈ l) :
    v ≤ l.getLastD 0 := by
  induction l with
  | nil => simp at hv
  | cons a t ih =>
    rw [List.getLastD_cons]
    rcases List.mem_cons.mp hv with rfl | hv
    · exact le_getLastD h
    · have := ih h.of_cons hv
      cases t with
      | nil => simp at hv
      | cons c t => rw [List.getLastD_cons] at this ⊢; exact this

/-- Grids and percentiles are in order if density estimates are positive, and for every actionable feature:
percentiles are those of the current grid, the point fits the grid type and lies within the range of the
grid, and no grid value is within `1e-8` of it without being equal to it. -/
theorem placed_of_range (hb : BuilderOK ext b)
    (hpos : ∀ vals pdf, ext.kde vals = .ok pdf → ∀ v, 0 < pdf v)
    (hel : ∀ (j : ℕ) (e : Elem K) (xj : K), b.aset.elems[j]? = some e → x[j]? = some xj →
      e.actionable = true → e.table ext = e.freshTable ext ∧ FitsGrid e xj ∧
      (∀ v ∈ e.grid.vals, v ≠ xj → 1 / 10 ^ 8 < |v - xj|) ∧
      (∃ u ∈ e.grid.vals, u ≤ xj) ∧ ∃ u ∈ e.grid.vals, xj ≤ u) : Placed ext b x := by
  refine ⟨fun j e xj he hx ha => (hel j e xj he hx ha).2.1,
    fun j e xj v he hx ha hv hne => (hel j e xj he hx ha).2.2.1 v hv hne, ?_, ?_⟩
  · intro j e xj u v p q he hx ha hu hv huv hp hq
    obtain ⟨h1, -, -, ⟨lo, hlo, hlo'⟩, hi, hhi, hhi'⟩ := hel j e xj he hx ha
    have hinv := (hb.aset.wf.elems e (List.mem_of_getElem? he)).inv
    unfold Elem.percentile at hp hq
    obtain ⟨t, ht, hp⟩ := bind_ok_iff.mp hp
    obtain ⟨t', ht', hq⟩ := bind_ok_iff.mp hq
    rw [ht] at ht'; cases ht'
    cases hp; cases hq
    rw [h1] at ht
    obtain ⟨hg, hxs⟩ := freshTable_good hinv.2 (hpos _) ht
    have hs : e.grid.vals.Pairwise (· < ·) := hinv.2.2
    have lo_ok : ∀ z, (z = xj ∨ z ∈ e.grid.vals) → t.xs.headD 0 ≤ z := by
      intro z hz
      rw [hxs]
      rcases hz with rfl | hz
      · exact le_trans (headD_le_of_sorted hs hlo) hlo'
      · exact headD_le_of_sorted hs hz
    have hi_ok : ∀ z, (z = xj ∨ z ∈ e.grid.vals) → z ≤ t.xs.getLastD 0 := by
      intro z hz
      rw [hxs]
      rcases hz with rfl | hz
      · exact le_trans hhi' (le_getLastD_of_sorted hs hhi)
      · exact le_getLastD_of_sorted hs hz
    exact hg.eval_strict (lo_ok u hu) huv (hi_ok v hv)
  · intro _ j e xj v q he hx ha hv hq
    obtain ⟨h1, -⟩ := hel j e xj he hx ha
    unfold Elem.percentile at hq
    obtain ⟨t, ht, hq⟩ := bind_ok_iff.mp hq
    cases hq
    rw [h1] at ht
    exact ((freshTable_good (hb.aset.wf.elems e (List.mem_of_getElem? he)).inv.2 (hpos _) ht).1.eval_range v).2

/-- Situations are regular up to alignment if there are no subset limits or they apply, `min_items` is at most 1, density estimates are positive, and for every actionable feature:
percentiles are those of the current grid, the point fits the grid type and lies within the range of the
grid, and no grid value is within `1e-8` of it without being equal to it. -/
theorem situated_of_range (hb : BuilderOK ext b)
    (hpos : ∀ vals pdf, ext.kde vals = .ok pdf → ∀ v, 0 < pdf v)
    (limits : LimitsApply b.aset x)
    (minItems : b.minItems ≤ 1)
    (hel : ∀ (j : ℕ) (e : Elem K) (xj : K), b.aset.elems[j]? = some e → x[j]? = some xj →
      e.actionable = true → e.table ext = e.freshTable ext ∧ FitsGrid e xj ∧
      (∀ v ∈ e.grid.vals, v ≠ xj → 1 / 10 ^ 8 < |v - xj|) ∧
      (∃ u ∈ e.grid.vals, u ≤ xj) ∧ ∃ u ∈ e.grid.vals, xj ≤ u) : Situated ext b x :=
  have h := placed_of_range hb hpos hel
  ⟨limits, minItems, h.fits, h.apart, h.pct, h.below⟩

/-- Situations are regular if, in addition, the action set is aligned with the builder's classifier. -/
theorem regular_of_range (hb : BuilderOK ext b)
    (hpos : ∀ vals pdf, ext.kde vals = .ok pdf → ∀ v, 0 < pdf v)
    (limits : LimitsApply b.aset x)
    (aligned : ∀ (j : ℕ) (e : Elem K) (w : K), b.aset.elems[j]? = some e → b.coefs[j]? = some w →
      e.flip = some (b.aset.yDesired * sgn w))
    (minItems : b.minItems ≤ 1)
    (hel : ∀ (j : ℕ) (e : Elem K) (xj : K), b.aset.elems[j]? = some e → x[j]? = some xj →
      e.actionable = true → e.table ext = e.freshTable ext ∧ FitsGrid e xj ∧
      (∀ v ∈ e.grid.vals, v ≠ xj → 1 / 10 ^ 8 < |v - xj|) ∧
      (∃ u ∈ e.grid.vals, u ≤ xj) ∧ ∃ u ∈ e.grid.vals, xj ≤ u) : Regular ext b x :=
  have h := situated_of_range hb hpos limits minItems hel
  ⟨h.limits, aligned, h.minItems, h.fits, h.apart, h.pct, h.below⟩

/-- Evaluation of the conditions of `regular_of_range` on one feature. -/
def regElemB (ext : Ext K) (e : Elem K) (xj : K) : Bool :=
  !e.actionable || (decide (e.table ext = e.freshTable ext) && (!e.grid.isInt || isIntegral xj) &&
    e.grid.vals.all (fun v => decide (v = xj) || decide (1 / 10 ^ 8 < |v - xj|)) &&
    e.grid.vals.any (fun v => decide (v ≤ xj)) && e.grid.vals.any (fun v => decide (xj ≤ v)))

/-- `DirOk`, evaluated. -/
def dirOkB (d : Int) (u v : K) : Bool := (!decide (0 < d) || decide (u ≤ v)) && (!decide (d < 0) || decide (v ≤ u))

theorem dirOkB_iff {d : Int} {u v : K} : dirOkB d u v = true ↔ DirOk d u v := by
  unfold dirOkB DirOk
  simp only [Bool.and_eq_true, Bool.or_eq_true, Bool.not_eq_true', decide_eq_false_iff_not, decide_eq_true_eq]
  tauto

/-- `UsableColumn`, evaluated. -/
def usableColB (A : ActionSet K) (n : String) (e : Elem K) (xj : K) : Bool :=
  decide (e.compatible ≠ some false) && (!e.grid.isInt || isIntegral xj) && e.actionable &&
    e.grid.vals.any fun v => decide (v ≠ xj) && dirOkB e.stepDir xj v &&
      (decide (n ∈ A.cons.flatNames) || (e.flip.toList.all fun d => dirOkB d xj v))

/-- `LimitsApply`, evaluated. -/
def limitsB (A : ActionSet K) (x : List K) : Bool :=
  (List.range A.names.length).all fun l => decide (A.names.getD l "" ∉ A.cons.flatNames) ||
    (decide (0 ≤ x.getD l 0) && ((A.cols x).take (l + 1)).all fun p => usableColB A p.1 p.2.1 p.2.2)

theorem limits_of_b {A : ActionSet K} (h : limitsB A x = true) : LimitsApply A x := by
  intro l n hn hl
  unfold limitsB at h
  rw [List.all_eq_true] at h
  have hlt : l < A.names.length := (List.getElem?_eq_some_iff.mp hn).1
  have hl' := h l (List.mem_range.mpr hlt)
  simp only [Bool.or_eq_true, Bool.and_eq_true, decide_eq_true_eq, List.all_eq_true] at hl'
  have hg : A.names.getD l "" = n := by rw [List.getD_eq_getElem?_getD, hn]; rfl
  rw [hg] at hl'
  rcases hl' with hl' | ⟨h1, h2⟩
  · exact absurd (listed_iff.mpr hl) hl'
  refine ⟨fun xl hxl => by rw [List.getD_eq_getElem?_getD, hxl] at h1; exact h1, ?_⟩
  intro j hj m e xj hm he hxj
  have hc : (A.cols x)[j]? = some (m, e, xj) := by
    unfold ActionSet.cols
    rw [List.getElem?_zip_eq_some]
    exact ⟨hm, List.getElem?_zip_eq_some.mpr ⟨he, hxj⟩⟩
  have h3 := h2 (m, e, xj) (List.mem_of_getElem? (i := j) (by rw [List.getElem?_take_of_lt (by omega)]; exact hc))
  unfold usableColB at h3
  simp only [Bool.and_eq_true, Bool.or_eq_true, decide_eq_true_eq, List.any_eq_true, Bool.not_eq_true',
    dirOkB_iff, List.all_eq_true] at h3
  obtain ⟨⟨⟨g1, g2⟩, g3⟩, v, hv, ⟨g4, g5⟩, g6⟩ := h3
  refine ⟨g1, ?_, v, g4, Or.inr ⟨g3, hv, g5⟩, ?_⟩
  · intro hint
    rcases g2 with g2 | g2
    · rw [hint] at g2; cases g2
    · unfold isIntegral at g2
      exact ⟨_, of_decide_eq_true g2⟩
  · intro hnl d hd
    rcases g6 with g6 | g6
    · exact absurd (listed_iff.mp g6) hnl
    · exact g6 d (by rw [hd]; simp)

/-- Evaluation of the conditions of `regular_of_range`. -/
def regularB (ext : Ext K) (b : Builder K) (x : List K) : Bool :=
  limitsB b.aset x && decide (b.minItems ≤ 1) &&
    (b.aset.elems.zip b.coefs).all (fun p => decide (p.1.flip = some (b.aset.yDesired * sgn p.2))) &&
    (b.aset.elems.zip x).all (fun p => regElemB ext p.1 p.2)

/-- Evaluation of the conditions of `placed_of_range`. -/
def placedB (ext : Ext K) (b : Builder K) (x : List K) : Bool := (b.aset.elems.zip x).all (fun p => regElemB ext p.1 p.2)

/-- Evaluation of the conditions of `situated_of_range`. -/
def situatedB (ext : Ext K) (b : Builder K) (x : List K) : Bool :=
  limitsB b.aset x && decide (b.minItems ≤ 1) && (b.aset.elems.zip x).all (fun p => regElemB ext p.1 p.2)

theorem placed_of_b (hb : BuilderOK ext b)
    (hpos : ∀ vals pdf, ext.kde vals = .ok pdf → ∀ v, 0 < pdf v) (h : placedB ext b x = true) :
    Placed ext b x := by
  unfold placedB at h
  rw [List.all_eq_true] at h
  have h4 := h
  refine placed_of_range hb hpos ?_
  · intro j e xj he hx ha
    have hz : (b.aset.elems.zip x)[j]? = some (e, xj) := by
      rw [List.getElem?_zip_eq_some]; exact ⟨he, hx⟩
    have := h4 (e, xj) (List.mem_of_getElem? hz)
    unfold regElemB at this
    simp only [ha, Bool.not_true, Bool.false_or, Bool.and_eq_true, List.all_eq_true, decide_eq_true_eq,
      Bool.or_eq_true, List.any_eq_true, Bool.not_eq_true'] at this
    obtain ⟨⟨⟨⟨r1, r2⟩, r3⟩, r4⟩, r5⟩ := this
    refine ⟨r1, ?_, ?_, r4, r5⟩
    · intro hint
      rcases r2 with r2 | r2
      · rw [hint] at r2; cases r2
      · unfold isIntegral at r2
        exact ⟨_, of_decide_eq_true r2⟩
    · intro v hv hne
      rcases r3 v hv with h | h
      · exact absurd h hne
      · exact h

theorem situated_of_b (hb : BuilderOK ext b)
    (hpos : ∀ vals pdf, ext.kde vals = .ok pdf → ∀ v, 0 < pdf v) (h : situatedB ext b x = true) :
    Situated ext b x := by
  unfold situatedB at h
  simp only [Bool.and_eq_true, decide_eq_true_eq] at h
  have hp := placed_of_b hb hpos (x := x) h.2
  exact ⟨limits_of_b h.1.1, h.1.2, hp.fits, hp.apart, hp.pct, hp.below⟩

theorem regular_of_b (hb : BuilderOK ext b)
    (hpos : ∀ vals pdf, ext.kde vals = .ok pdf → ∀ v, 0 < pdf v) (h : regularB ext b x = true) :
    Regular ext b x := by
  have hs : situatedB ext b x = true := by
    unfold situatedB; unfold regularB at h
    simp only [Bool.and_eq_true] at h ⊢
    exact ⟨⟨h.1.1.1, h.1.1.2⟩, h.2⟩
  have hs := situated_of_b hb hpos hs
  unfold regularB at h
  simp only [Bool.and_eq_true, List.all_eq_true, decide_eq_true_eq] at h
  refine ⟨hs.limits, ?_, hs.minItems, hs.fits, hs.apart, hs.pct, hs.below⟩
  intro j e w he hw
  have hz : (b.aset.elems.zip b.coefs)[j]? = some (e, w) := by
    rw [List.getElem?_zip_eq_some]; exact ⟨he, hw⟩
  exact h.1.2 (e, w) (List.mem_of_getElem? hz)

/-! ## Concrete builders before the assignment of the point -/

/-- The calls `A = ActionSet(X, names)`, `prep A`, `b = RecourseBuilder(A, w, t)`. -/
def exBuilderE (be : Backend) (ct : CostType) (X : List (List ℚ)) (names : List String)
    (prep : ActionSet ℚ → Except Err (ActionSet ℚ)) (w : List ℚ) (t : ℚ) : Except Err (Builder ℚ) := do
  let A ← mkActionSet X names 1 [] defaultBounds (.str "relative")
  let A ← prep A
  mkBuilder be ct A w t

theorem exBuilderE_reachable {ext : Ext ℚ} {be : Backend} {ct : CostType} {X : List (List ℚ)} {names : List String}
    {prep : ActionSet ℚ → Except Err (ActionSet ℚ)} {w : List ℚ} {t : ℚ} {b : Builder ℚ}
    (h : exBuilderE be ct X names prep w t = .ok b)
    (hprep : ∀ A A', A.Reachable ext → prep A = .ok A' → A'.Reachable ext) : b.Reachable ext := by
  unfold exBuilderE at h
  simp only [bind_ok_iff] at h
  obtain ⟨A, hA, A', hA', hb0⟩ := h
  exact .mk (hprep _ _ (.mk hA) hA') hb0

/-- The answer of every exact solver after a successful assignment of the point. -/
theorem exSolve {ext : Ext ℚ} (hso : SetOrderOk ext) {b0 : Builder ℚ} {x : List ℚ} (hr : b0.Reachable ext)
    (hx : (b0.setX ext x).2 = .ok ()) {o : Oracle ℚ} (ho : o.Exact) :
    ∃ b1 feats, b0.setX ext x = (b1, .ok ()) ∧ b0.buildInfo ext x = .ok feats ∧
      (b0.setX ext x).1.feats = feats ∧ ∃ b' i, b1.fit o = .ok (b', i) ∧
      ((admitted (b0.buildArgs x feats) (fun _ => true) = [] ∧ i = emptyInfo) ∨
       ∃ κ ∈ optChoices (b0.buildArgs x feats) (fun _ => true), ChoiceOK (b0.buildArgs x feats) κ ∧
        i.feasible = true ∧
        i.actions = some (actVec b0.coefs.length feats κ) ∧
        i.costs = some (cstVec b0.coefs.length feats κ) ∧
        i.cost = .fin (if b0.costType = .max then choiceMax feats κ else choiceSum feats κ) ∧
        i.upperbound = .fin (choiceObj b0.costType feats κ)) := by
  obtain ⟨b1, hs⟩ : ∃ b1, b0.setX ext x = (b1, .ok ()) := ⟨_, Prod.ext rfl hx⟩
  obtain ⟨feats, h1, h2, h3⟩ := Posed.setX hso hr.ok hs
  obtain ⟨m, hm, -⟩ := h3.mip
  have h3' : Posed b0.coefs.length b0.backend (b0.buildArgs x feats)
      (fun κ => (fun _ => true : (ℕ → ℕ) → Bool) κ = true) b1 := by simpa using h3
  refine ⟨b1, feats, hs, h1, by rw [hs]; exact h3.feats, b1.solve o, (b1.solve o).solutionInfo,
    by unfold Builder.fit; rw [hm], ?_⟩
  rcases h3'.exec h2 ho with ⟨h, -, h'⟩ | ⟨κ, hκ, σ, -, -, hrep, hbest⟩
  · exact Or.inl ⟨h, h'⟩
  · refine Or.inr ⟨κ, hκ, ?_, hrep.feasible, hrep.actions, hrep.costs, hbest.cost, hbest.bound⟩
    unfold optChoices admitted at hκ
    simp only [List.mem_filter, Bool.and_eq_true, choiceOKb_iff] at hκ
    exact hκ.1.2.1

theorem admitted_ok {p : BuildArgs K} {P : (ℕ → ℕ) → Bool} {κ : ℕ → ℕ} (h : κ ∈ admitted p P) :
    ChoiceOK p κ ∧ P κ = true := by
  unfold admitted at h
  simp only [List.mem_filter, Bool.and_eq_true, choiceOKb_iff] at h
  exact h.2

/-- No preparation of the action set. -/
theorem prepE_ok {ext : Ext ℚ} {A A' : ActionSet ℚ} (hA : A.Reachable ext)
    (h : (Except.ok A : Except Err _) = .ok A') : A'.Reachable ext := by cases h; exact hA

/-- `Denied`, evaluated. -/
instance {b : Builder ℚ} {x : List ℚ} : Decidable (Denied b x) := by unfold Denied; infer_instance

theorem exExt_pos : ∀ vals pdf, exExt.kde vals = .ok pdf → ∀ v, 0 < pdf v := by
  intro vals pdf h v; cases h; exact one_pos

end Recourse
