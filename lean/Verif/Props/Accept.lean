import Verif.Props.Compare
import Verif.Props.Limits
import Verif.Lemmas.Regular

/-!
# C88: which points are accepted
-/

set_option linter.unusedSectionVars false

namespace Recourse

variable {K : Type} [Field K] [LinearOrder K] [IsStrictOrderedRing K] [FloorRing K]

variable {ext : Ext K} {b : Builder K} {x : List K}

/-- What is assumed of the logarithm: strictly increasing on positive numbers, and 0 at 1. -/
def LogIncreasing (ext : Ext K) : Prop := ext.log 1 = 0 ∧ ∀ r s : K, 0 < r → r < s → ext.log r < ext.log s

/-- What a point must meet, besides being regular: it has one value for every feature; percentiles can be
computed for the compatible features; the coefficients of usable features exceed numpy's tolerance `1e-8`; the
values offered for a feature listed in a subset limit lie on one side of the point, and 0 is among
them if the point is positive there; and some feature is usable (needed for the cost types `total` and `local`). -/
structure Acceptable (ext : Ext K) (b : Builder K) (x : List K) : Prop where
  length : x.length = b.coefs.length
  scores : ∀ (j : ℕ) (e : Elem K), b.aset.elems[j]? = some e → e.compatible ≠ some false →
    ∃ v p, e.percentile ext v = .ok p
  coefs : ∀ (j : ℕ) (w : K), b.coefs[j]? = some w → UsableColumn b.aset x j → 1 / 10 ^ 8 < |w|
  side : ∀ (j : ℕ) (n : String) (e : Elem K) (xj : K), b.aset.names[j]? = some n → b.aset.elems[j]? = some e →
    x[j]? = some xj → Listed b.aset n → (∀ v, Permitted e xj v → xj ≤ v) ∨ ∀ v, Permitted e xj v → v ≤ xj
  zero : ∀ (j : ℕ) (n : String) (e : Elem K) (xj : K), b.aset.names[j]? = some n → b.aset.elems[j]? = some e →
    x[j]? = some xj → Listed b.aset n → 0 < xj → Permitted e xj 0
  some : b.costType = .max ∨ ∃ j < b.coefs.length, UsableColumn b.aset x j

theorem LogIncreasing.ok (h : LogIncreasing ext) : LogOk ext := by
  intro r hr
  constructor
  · intro h0
    by_contra hle
    push Not at hle
    rcases lt_or_eq_of_le hle with h1 | h1
    · have := h.2 r 1 hr h1; rw [h.1] at this; linarith
    · rw [h1, h.1] at h0; exact lt_irrefl _ h0
  · intro h1
    have := h.2 1 r one_pos h1
    rwa [h.1] at this

/-! ## Existence of the grid -/

theorem mapM_total {α β ε : Type} {F : α → Except ε β} {l : List α} (h : ∀ a ∈ l, ∃ r, F a = .ok r) :
    ∃ r, l.mapM F = .ok r := by
  induction l with
  | nil => exact ⟨[], rfl⟩
  | cons a l ih =>
    obtain ⟨r, hr⟩ := h a (List.mem_cons_self ..)
    obtain ⟨s, hs⟩ := ih fun a ha => h a (List.mem_cons_of_mem _ ha)
    exact ⟨r :: s, mapM_ok_cons.mpr ⟨r, s, hr, hs, rfl⟩⟩

theorem gridEntry_total {n : String} {e : Elem K} {xj : K} {drop : Bool} {t : Table K} (ha : e.aligned = true)
    (ht : e.table ext = .ok t) : gridEntry ext n e xj true drop
      = .ok ⟨n, (e.feasX xj drop).map (· - xj), (e.feasX xj drop).map t.eval⟩ := by
  unfold gridEntry Elem.feasibleValues Elem.feasiblePercentiles
  rw [ha, ht]; rfl

theorem overrideLoop_total {A : ActionSet K} (ns : List String)
    (h : ∀ n ∈ ns, ∃ e xj g, A.elem? n = some e ∧ x[A.names.idxOf n]? = some xj ∧
      gridEntry ext n e xj true false = .ok g) :
    ∀ out, ∃ out', A.overrideLoop ext x true ns out = .ok out' := by
  induction ns with
  | nil => intro out; exact ⟨out, rfl⟩
  | cons n ns ih =>
    intro out
    obtain ⟨e, xj, g, h1, h2, h3⟩ := h n (List.mem_cons_self ..)
    obtain ⟨o, ho⟩ := ih (fun m hm => h m (List.mem_cons_of_mem _ hm)) (dictSetEntry out g)
    refine ⟨o, ?_⟩
    unfold ActionSet.overrideLoop
    rw [h1]; dsimp only
    rw [h2]; dsimp only
    rw [h3]; exact ho

/-- The grid of a point exists if the visited features are aligned and their percentiles can be computed. -/
theorem feasibleGrid_total (hso : SetOrderOk ext) {A : ActionSet K} (hA : A.Reachable ext)
    (hx : x.length = A.names.length)
    (hel : ∀ (j : ℕ) (n : String) (e : Elem K), A.names[j]? = some n → A.elems[j]? = some e →
      (e.compatible ≠ some false ∨ Listed A n) → e.aligned = true ∧ ∃ t, e.table ext = .ok t) :
    ∃ out, A.feasibleGrid ext x true true = .ok out := by
  have hwf := hA.wf
  have hct : ∀ e : Elem K, e.compatTruthy = true → e.compatible ≠ some false := by
    intro e; unfold Elem.compatTruthy
    cases h : e.compatible with
    | none => simp
    | some b => cases b <;> simp
  obtain ⟨base, hbase⟩ : ∃ base, ((A.cols x).filter fun p => !true || p.2.1.compatTruthy).mapM
      (fun p => gridEntry ext p.1 p.2.1 p.2.2 true true) = .ok base := by
    refine mapM_total ?_
    intro p hp
    rw [List.mem_filter] at hp
    obtain ⟨j, h1, h2, h3⟩ := (cols_mem hwf.columns hx).mp hp.1
    obtain ⟨ha, t, ht⟩ := hel j _ _ h1 h2 (Or.inl (hct _ (by simpa using hp.2)))
    exact ⟨_, gridEntry_total ha ht⟩
  unfold ActionSet.feasibleGrid
  rw [show pyAssert (decide (x.length = A.names.length)) = .ok () from by rw [decide_eq_true hx]; rfl]
  simp only [ok_bind]
  rw [hbase]
  simp only [ok_bind]
  by_cases hc : 0 < A.cons.items.length
  · rw [if_pos hc]
    refine overrideLoop_total _ ?_ base
    intro n hn
    have hl : Listed A n := listed_iff.mp ((hso _ n).mp hn)
    obtain ⟨k, hk, hnk⟩ := hl
    have hnn : n ∈ A.names := by
      have h := (hwf.cons k hk).position
      have : some n ∈ k.names.map some := List.mem_map.mpr ⟨n, hnk, rfl⟩
      rw [h] at this
      obtain ⟨i, -, hi⟩ := List.mem_map.mp this
      exact List.mem_of_getElem? hi
    have hj : A.names[A.names.idxOf n]? = some n := List.getElem?_idxOf hnn
    have hlt : A.names.idxOf n < A.names.length := List.idxOf_lt_length_iff.mpr hnn
    obtain ⟨e, he⟩ : ∃ e, A.elems[A.names.idxOf n]? = some e :=
      ⟨_, List.getElem?_eq_getElem (by rw [hwf.length]; exact hlt)⟩
    obtain ⟨xj, hxj⟩ : ∃ xj, x[A.names.idxOf n]? = some xj :=
      ⟨_, List.getElem?_eq_getElem (by rw [hx]; exact hlt)⟩
    obtain ⟨ha, t, ht⟩ := hel _ n e hj he (Or.inr ⟨k, hk, hnk⟩)
    exact ⟨e, xj, _, (elem?_eq hwf.columns hj he).1, hxj, gridEntry_total ha ht⟩
  · rw [if_neg hc]; exact ⟨_, rfl⟩

/-! ## One feature -/

theorem mkFeat_mk {cn : List String} {g : GridEntry K} {w xj : K} {k : ℕ} {ac : List (K × K)}
    (h1 : dropBugs ((orient ext b.costType g.acts g.pcts).1.zip (orient ext b.costType g.acts g.pcts).2)
        = some ac) (h2 : g.name ∈ b.varNames)
    (h3 : b.coefs[b.varNames.idxOf g.name]? = some w) (h4 : x[b.varNames.idxOf g.name]? = some xj)
    (h5 : (if g.name ∈ cn ∧ 0 < xj then nullIndex (ac.map (·.1)) xj else .ok 0) = .ok k)
    (h6 : 2 ≤ ac.length) :
    mkFeat ext b x cn g = .ok
      { name := g.name, idx := b.varNames.idxOf g.name, coef := w,
        actions := ac.map (·.1), costs := ac.map (·.2), kNull := k } := by
  have h6' : (npDiff (ac.map (·.2))).isEmpty = false := by
    match ac, h6 with
    | _ :: _ :: _, _ => simp [npDiff]
  unfold mkFeat
  dsimp only
  rw [h1]; dsimp only
  rw [if_neg (not_not.mpr h2), h3]; dsimp only
  rw [h4]; dsimp only
  by_cases hc : g.name ∈ cn ∧ 0 < xj
  · rw [if_pos hc] at h5 ⊢
    rw [h5, ok_bind, h6']; rfl
  · rw [if_neg hc] at h5 ⊢
    rw [h6']
    cases h5; rfl

/-- Costs at the point and beyond. -/
theorem stepCost_self {ct : CostType} (hlog : LogIncreasing ext) {P : K → K} {u : K} {up : Bool}
    (h1 : ct = .loc → P u < 1) : stepCost ext ct P u up u = 0 := by
  unfold stepCost
  by_cases hl : ct = .loc
  · have h2 : (1 - P u) ≠ 0 := by have := h1 hl; intro h; linarith
    rw [if_pos hl]
    cases up <;> simp [div_self h2, hlog.1]
  · rw [if_neg hl]; cases up <;> simp

theorem stepCost_lt {ct : CostType} (hlog : LogIncreasing ext) {P : K → K} {x0 u v : K} {up : Bool}
    (h1 : ct = .loc → P x0 < 1 ∧ P u < 1 ∧ P v < 1) (h2 : if up then P u < P v else P v < P u) :
    stepCost ext ct P x0 up u < stepCost ext ct P x0 up v := by
  unfold stepCost
  by_cases hl : ct = .loc
  · obtain ⟨g0, gu, gv⟩ := h1 hl
    have e0 : 0 < 1 - P x0 := by linarith
    have eu : 0 < 1 - P u := by linarith
    have ev : 0 < 1 - P v := by linarith
    rw [if_pos hl, if_pos hl]
    cases up
    · simp only [Bool.false_eq_true, if_false] at h2 ⊢
      apply hlog.2 _ _ (div_pos eu e0)
      exact div_lt_div_of_pos_right (by linarith) e0
    · simp only [if_true] at h2 ⊢
      apply hlog.2 _ _ (div_pos e0 eu)
      exact div_lt_div_of_pos_left e0 ev (by linarith)
  · rw [if_neg hl, if_neg hl]
    cases up
    · simp only [Bool.false_eq_true, if_false] at h2 ⊢; linarith
    · simp only [if_true] at h2 ⊢; linarith

/-- The order in which a one-sided list of offered values is used. -/
theorem buildOrder_side {V : List K} {xj : K} (hs : V.Pairwise (· < ·)) (hx : xj ∈ V)
    (hap : ∀ v ∈ V, v ≠ xj → isClose (v - xj) 0 = false)
    (hside : (∀ v ∈ V, xj ≤ v) ∨ ∀ v ∈ V, v ≤ xj) :
    ∃ T, (buildOrder V xj).2 = xj :: T ∧
      (((buildOrder V xj).1 = true ∧ (xj :: T).Pairwise (· < ·)) ∨
       ((buildOrder V xj).1 = false ∧ (xj :: T).Pairwise (· > ·))) := by
  have hne : V ≠ [] := List.ne_nil_of_mem hx
  have hlast : V.getLastD 0 ∈ V := by
    rw [List.getLastD_eq_getLast?, List.getLast?_eq_some_getLast hne]
    exact List.getLast_mem hne
  have hle := le_getLastD_of_sorted hs hx
  by_cases hl : V.getLastD 0 = xj
  · have hcl : isClose (V.getLastD 0 - xj) 0 = true := by
      rw [hl, sub_self]; simp [isClose, isCloseTol]
    have hbo : buildOrder V xj = (false, V.reverse) := by unfold buildOrder; rw [if_pos hcl]
    rw [hbo]
    have hr : V.reverse.Pairwise (· > ·) := List.pairwise_reverse.mpr hs
    have hh : V.reverse.head? = some xj := by
      rw [List.head?_reverse, List.getLast?_eq_some_getLast hne]
      rw [List.getLastD_eq_getLast?, List.getLast?_eq_some_getLast hne] at hl
      exact congrArg some hl
    obtain ⟨T, hT⟩ : ∃ T, V.reverse = xj :: T := by
      cases hv : V.reverse with
      | nil => rw [hv] at hh; cases hh
      | cons a T => rw [hv] at hh; cases hh; exact ⟨T, rfl⟩
    exact ⟨T, hT, Or.inr ⟨rfl, hT ▸ hr⟩⟩
  · have hcl : isClose (V.getLastD 0 - xj) 0 = false := hap _ hlast hl
    have hbo : buildOrder V xj = (true, V) := by unfold buildOrder; rw [if_neg (by rw [hcl]; simp)]
    rw [hbo]
    have hup : ∀ v ∈ V, xj ≤ v := by
      rcases hside with h | h
      · exact h
      · exact absurd (le_antisymm (h _ hlast) hle) hl
    cases V with
    | nil => exact absurd rfl hne
    | cons a T =>
      have : a = xj := by
        rcases List.mem_cons.mp hx with h | h
        · exact h.symm
        · exact absurd (hup a (List.mem_cons_self ..)) (not_le.mpr ((List.pairwise_cons.mp hs).1 _ h))
      subst this
      exact ⟨T, rfl, Or.inl ⟨rfl, hs⟩⟩

theorem dropBugs_keep {h : K × K} {l : List (K × K)} (h0 : isBug h.1 h.2 = true)
    (hl : ∀ q ∈ l, isBug q.1 q.2 = false) : dropBugs (h :: l) = some (h :: l) := by
  obtain ⟨a, c⟩ := h
  unfold dropBugs
  rw [if_pos h0, List.filter_eq_self.mpr (fun q hq => by rw [hl q hq]; rfl)]

/-- Compatible features of an aligned action set are actionable and have a direction. -/
theorem compatible_parts {e : Elem K} {d : Int} (hf : e.flip = some d) (hc : e.compatible ≠ some false) :
    e.actionable = true ∧ d ≠ 0 := by
  unfold Elem.compatible at hc
  rw [hf] at hc
  dsimp only at hc
  cases ha : e.actionable with
  | false => rw [ha] at hc; simp at hc
  | true =>
    refine ⟨rfl, ?_⟩
    rintro rfl
    rw [ha] at hc; simp at hc

theorem exists_ne_of_two {V : List K} (hs : V.Pairwise (· < ·)) (h2 : 2 ≤ V.length) (xj : K) : ∃ v ∈ V, v ≠ xj := by
  match V, h2 with
  | u :: v :: _, _ =>
    by_cases h : u = xj
    · refine ⟨v, by simp, ?_⟩
      have := (List.pairwise_cons.mp hs).1 v (by simp)
      rw [← h]; exact ne_of_gt this
    · exact ⟨u, by simp, h⟩

/-- Columns with at least two offered values are usable. -/
theorem usable_of_offers (hb : BuilderOK ext b) (hreg : Regular ext b x) {j : ℕ} {n : String} {e : Elem K} {xj : K}
    (hj : b.aset.names[j]? = some n) (he : b.aset.elems[j]? = some e) (hx : x[j]? = some xj)
    (hc : e.compatible ≠ some false) (ha : e.actionable = true)
    (h2 : 2 ≤ (e.feasX xj (decide (n ∉ b.aset.cons.flatNames))).length) : UsableColumn b.aset x j := by
  have hfit := hreg.fits j e xj he hx ha
  intro n' e' xj' hj' he' hx'
  rw [hj] at hj'; rw [he] at he'; rw [hx] at hx'
  cases hj'; cases he'; cases hx'
  have hs : (e.feasX xj (decide (n ∉ b.aset.cons.flatNames))).Pairwise (· < ·) :=
    feasX_pairwise (hb.aset.wf.elems e (List.mem_of_getElem? he)).inv.2.2 fun _ => hfit
  obtain ⟨v, hv, hne⟩ := exists_ne_of_two hs h2 xj
  obtain ⟨hp, hk⟩ := (mem_feasX fun _ => hfit).mp hv
  refine ⟨hc, hfit, v, hne, hp, ?_⟩
  intro hnl d hd
  exact hk (decide_eq_true (not_listed_iff.mpr hnl)) d hd

/-- Usable columns have at least two offered values. -/
theorem offers_of_usable {j : ℕ} {n : String} {e : Elem K} {xj : K} (hu : UsableColumn b.aset x j)
    (hj : b.aset.names[j]? = some n) (he : b.aset.elems[j]? = some e) (hx : x[j]? = some xj) :
    2 ≤ (e.feasX xj (decide (n ∉ b.aset.cons.flatNames))).length := by
  obtain ⟨-, hfit, v, hne, hp, hd⟩ := hu n e xj hj he hx
  refine two_le_of_mem (u := v) (v := xj) ?_ ?_ hne
  · refine (mem_feasX fun _ => hfit).mpr ⟨hp, ?_⟩
    intro hk d hd'
    exact hd (not_listed_iff.mp (of_decide_eq_true hk)) d hd'
  · exact (mem_feasX fun _ => hfit).mpr ⟨Or.inl rfl, fun _ d _ => ⟨fun _ => le_refl _, fun _ => le_refl _⟩⟩

/-- Every feature that has something to offer passes. -/
theorem feat_total (hso : SetOrderOk ext) (hb : BuilderOK ext b) (hlog : LogIncreasing ext)
    (hreg : Regular ext b x) (hacc : Acceptable ext b x) {grid : List (GridEntry K)}
    (hgrid : b.aset.feasibleGrid ext x true true = .ok grid) {g : GridEntry K} (hg : g ∈ grid)
    (hg2 : 2 ≤ g.acts.length) :
    ∃ f, mkFeat ext b x b.aset.cons.flatNames g = .ok f ∧
      checkFeat b.aset.yDesired b.aset.cons.flatNames f = true := by
  have hwf := hb.aset.wf
  obtain ⟨-, g2, g3⟩ := C20_feasible_grid hso hb.aset hgrid
  have hxl : x.length = b.aset.names.length := by rw [hacc.length, hb.coefs]
  have hgn := g2 g hg
  set j := b.aset.names.idxOf g.name with hjd
  have hj : b.aset.names[j]? = some g.name := List.getElem?_idxOf hgn
  have hjlt : j < b.aset.names.length := List.idxOf_lt_length_iff.mpr hgn
  obtain ⟨e, he⟩ : ∃ e, b.aset.elems[j]? = some e :=
    ⟨_, List.getElem?_eq_getElem (by rw [hwf.length]; exact hjlt)⟩
  obtain ⟨xj, hxj⟩ : ∃ xj, x[j]? = some xj := ⟨_, List.getElem?_eq_getElem (by rw [hxl]; exact hjlt)⟩
  obtain ⟨w, hw⟩ : ∃ w, b.coefs[j]? = some w := ⟨_, List.getElem?_eq_getElem (by rw [hb.coefs]; exact hjlt)⟩
  obtain ⟨h1, h2⟩ := g3 j g.name e xj hj he hxj
  obtain ⟨hacts, hpcts⟩ := h2 g hg rfl
  have hdrop : decide (¬ ∃ k ∈ b.aset.cons.items, g.name ∈ k.names) = decide (g.name ∉ b.aset.cons.flatNames) := by
    rw [decide_eq_decide]; exact not_listed_iff.symm
  rw [hdrop] at hacts hpcts
  have hc : e.compatible ≠ some false := by
    rcases h1.mp ⟨g, hg, rfl⟩ with h | h
    · exact h
    · exact ((hreg.limits j g.name hj h).2 j (le_refl _) g.name e xj hj he hxj).1
  have hflip := hreg.aligned j e w he hw
  obtain ⟨ha, hd0⟩ := compatible_parts hflip hc
  have hfit := hreg.fits j e xj he hxj ha
  have hinv := (hwf.elems e (List.mem_of_getElem? he)).inv
  unfold Elem.feasiblePercentiles at hpcts
  obtain ⟨t, ht, hpcts⟩ := bind_ok_iff.mp hpcts
  have hpc := Except.ok.inj hpcts
  have hac := feasibleValues_ok hacts
  simp only [if_true] at hac
  set V := e.feasX xj (decide (g.name ∉ b.aset.cons.flatNames)) with hV
  have hVl : 2 ≤ V.length := by rw [hac] at hg2; simpa using hg2
  have hmem : ∀ v, v ∈ V ↔ Permitted e xj v ∧ KeepFlip e (decide (g.name ∉ b.aset.cons.flatNames)) xj v :=
    fun v => mem_feasX fun _ => hfit
  have hs : V.Pairwise (· < ·) := feasX_pairwise hinv.2.2 fun _ => hfit
  have hxV : xj ∈ V := (hmem xj).mpr ⟨Or.inl rfl, fun _ d _ => ⟨fun _ => le_refl _, fun _ => le_refl _⟩⟩
  have hgridm : ∀ v ∈ V, v = xj ∨ v ∈ e.grid.vals := by
    intro v hv
    rcases ((hmem v).mp hv).1 with h | h
    · exact Or.inl h
    · exact Or.inr h.2.1
  have hap : ∀ v ∈ V, v ≠ xj → isClose (v - xj) 0 = false := by
    intro v hv hne
    rw [isClose_zero]
    exact hreg.apart j e xj v he hxj ha ((hgridm v hv).resolve_left hne) hne
  have hu : UsableColumn b.aset x j := usable_of_offers hb hreg hj he hxj hc ha hVl
  have hwb := hacc.coefs j w hw hu
  have hy := hwf.y
  have hw0 : w ≠ 0 := by rintro rfl; rw [abs_zero] at hwb; exact absurd hwb (not_lt.mpr (by positivity))
  -- one side
  have hdir : g.name ∉ b.aset.cons.flatNames → (0 < b.aset.yDesired * sgn w → ∀ v ∈ V, xj ≤ v) ∧
      (¬ 0 < b.aset.yDesired * sgn w → ∀ v ∈ V, v ≤ xj) := by
    intro hm
    constructor
    · intro hd v hv
      exact (((hmem v).mp hv).2 (decide_eq_true hm) _ hflip).1 hd
    · intro hd v hv
      exact (((hmem v).mp hv).2 (decide_eq_true hm) _ hflip).2 (by omega)
  have hside : (∀ v ∈ V, xj ≤ v) ∨ ∀ v ∈ V, v ≤ xj := by
    by_cases hm : g.name ∈ b.aset.cons.flatNames
    · rcases hacc.side j g.name e xj hj he hxj (listed_iff.mp hm) with h | h
      · exact Or.inl fun v hv => h v ((hmem v).mp hv).1
      · exact Or.inr fun v hv => h v ((hmem v).mp hv).1
    · by_cases hd : 0 < b.aset.yDesired * sgn w
      · exact Or.inl ((hdir hm).1 hd)
      · exact Or.inr ((hdir hm).2 hd)
  obtain ⟨T, hT, hor⟩ := buildOrder_side hs hxV hap hside
  have hTV : ∀ v, v ∈ xj :: T ↔ v ∈ V := by intro v; rw [← hT]; exact mem_buildOrder
  have hpt : ∀ v, e.percentile ext v = .ok (t.eval v) := by intro v; unfold Elem.percentile; rw [ht]; rfl
  have hlt : ∀ u ∈ V, ∀ v ∈ V, u < v → t.eval u < t.eval v := fun u hu v hv huv =>
    hreg.pct j e xj u v _ _ he hxj ha (hgridm u hu) (hgridm v hv) huv (hpt u) (hpt v)
  have hbel : b.costType = .loc → ∀ v ∈ V, t.eval v < 1 := fun hl v hv =>
    hreg.below hl j e xj v _ he hxj ha (hgridm v hv) (hpt v)
  set up := (buildOrder V xj).1 with hup
  set C := stepCost ext b.costType t.eval xj up with hC
  have hCs : (xj :: T).Pairwise fun u v => C u < C v := by
    rcases hor with ⟨h3, h4⟩ | ⟨h3, h4⟩
    · refine h4.imp_of_mem ?_
      intro u v hu hv huv
      refine stepCost_lt hlog (fun hl => ⟨hbel hl _ hxV, hbel hl _ ((hTV u).mp hu), hbel hl _ ((hTV v).mp hv)⟩) ?_
      rw [h3, if_pos rfl]
      exact hlt u ((hTV u).mp hu) v ((hTV v).mp hv) huv
    · refine h4.imp_of_mem ?_
      intro u v hu hv huv
      refine stepCost_lt hlog (fun hl => ⟨hbel hl _ hxV, hbel hl _ ((hTV u).mp hu), hbel hl _ ((hTV v).mp hv)⟩) ?_
      rw [h3, if_neg (by simp)]
      exact hlt v ((hTV v).mp hv) u ((hTV u).mp hu) huv
  have hC0 : C xj = 0 := stepCost_self hlog fun hl => hbel hl _ hxV
  have hCpos : ∀ v ∈ T, 0 < C v := fun v hv => by
    have := (List.pairwise_cons.mp hCs).1 v hv
    rwa [hC0] at this
  have hTne : ∀ v ∈ T, v ≠ xj := fun v hv h => by
    have := hCpos v hv; rw [h, hC0] at this; exact lt_irrefl _ this
  have hVne : V ≠ [] := List.ne_nil_of_mem hxV
  have hzip := orient_zip ext b.costType t.eval V xj hVne hT
  rw [hT] at hzip
  have hdb : dropBugs ((orient ext b.costType g.acts g.pcts).1.zip (orient ext b.costType g.acts g.pcts).2)
      = some ((xj :: T).map fun v => (v - xj, C v)) := by
    rw [hac, ← hpc, hzip, List.map_cons]
    refine dropBugs_keep ?_ ?_
    · unfold isBug
      rw [Bool.or_eq_true]
      exact Or.inl (decide_eq_true (le_of_eq hC0))
    · intro q hq
      obtain ⟨v, hv, rfl⟩ := List.mem_map.mp hq
      unfold isBug
      rw [Bool.or_eq_false_iff]
      exact ⟨decide_eq_false (not_le.mpr (hCpos v hv)),
        hap v ((hTV v).mp (List.mem_cons_of_mem _ hv)) (hTne v hv)⟩
  have hTl : 2 ≤ (xj :: T).length := by rw [← hT, buildOrder_length]; exact hVl
  -- the nullifying position
  obtain ⟨k, hk⟩ : ∃ k, (if g.name ∈ b.aset.cons.flatNames ∧ 0 < xj then
      nullIndex (((xj :: T).map fun v => (v - xj, C v)).map (·.1)) xj else .ok 0) = .ok k := by
    by_cases hcnd : g.name ∈ b.aset.cons.flatNames ∧ 0 < xj
    · rw [if_pos hcnd]
      unfold nullIndex
      have h0 : Permitted e xj 0 := hacc.zero j g.name e xj hj he hxj (listed_iff.mp hcnd.1) hcnd.2
      have h0V : (0 : K) ∈ V := (hmem 0).mpr ⟨h0, fun hf => absurd hcnd.1 (of_decide_eq_true hf)⟩
      rw [if_pos]
      · exact ⟨_, rfl⟩
      · rw [List.map_map]
        exact List.mem_map.mpr ⟨0, (hTV 0).mpr h0V, by simp⟩
    · rw [if_neg hcnd]; exact ⟨_, rfl⟩
  have hvn : b.varNames.idxOf g.name = j := by rw [hb.names]
  refine ⟨_, mkFeat_mk hdb (by rw [hb.names]; exact hgn) (hvn ▸ hw) (hvn ▸ hxj) hk (by simpa using hTl), ?_⟩
  rw [checkFeat_iff]
  simp only [List.map_map]
  refine ⟨isClose_zero.mpr hwb, by simpa using hC0, by simp, ?_, by simpa using hTl, by simp, ?_, ?_⟩
  · by_cases hm : g.name ∈ b.aset.cons.flatNames
    · exact Or.inl hm
    · right
      by_cases hd : 0 < b.aset.yDesired * sgn w
      · rw [if_pos hd]
        intro a ha'
        simp only [List.map_cons, List.tail_cons, List.mem_map, Function.comp] at ha'
        obtain ⟨v, hv, rfl⟩ := ha'
        have h5 := (hdir hm).1 hd v ((hTV v).mp (List.mem_cons_of_mem _ hv))
        exact sub_pos.mpr (lt_of_le_of_ne h5 (hTne v hv).symm)
      · rw [if_neg hd]
        intro a ha'
        simp only [List.map_cons, List.tail_cons, List.mem_map, Function.comp] at ha'
        obtain ⟨v, hv, rfl⟩ := ha'
        have h5 := (hdir hm).2 hd v ((hTV v).mp (List.mem_cons_of_mem _ hv))
        exact sub_neg.mpr (lt_of_le_of_ne h5 (hTne v hv))
  · unfold List.Nodup
    rw [List.pairwise_map]
    rcases hor with ⟨-, h4⟩ | ⟨-, h4⟩
    · exact h4.imp fun h => by simpa using ne_of_lt h
    · exact h4.imp fun h => by simpa using ne_of_gt h
  · unfold List.Nodup
    rw [List.pairwise_map]
    exact hCs.imp fun h => ne_of_lt h

/-! ## Acceptance -/

theorem buildInfo_total (hso : SetOrderOk ext) (hb : BuilderOK ext b) (hlog : LogIncreasing ext)
    (hreg : Regular ext b x) (hacc : Acceptable ext b x) : ∃ feats, b.buildInfo ext x = .ok feats := by
  have hwf := hb.aset.wf
  have hxl : x.length = b.aset.names.length := by rw [hacc.length, hb.coefs]
  obtain ⟨grid, hgrid⟩ := feasibleGrid_total hso hb.aset hxl (by
    intro j n e hj he hor
    have hjlt : j < b.aset.names.length := (List.getElem?_eq_some_iff.mp hj).1
    obtain ⟨w, hw⟩ : ∃ w, b.coefs[j]? = some w := ⟨_, List.getElem?_eq_getElem (by rw [hb.coefs]; exact hjlt)⟩
    obtain ⟨xj, hxj⟩ : ∃ xj, x[j]? = some xj := ⟨_, List.getElem?_eq_getElem (by rw [hxl]; exact hjlt)⟩
    have hc : e.compatible ≠ some false := by
      rcases hor with h | h
      · exact h
      · exact ((hreg.limits j n hj h).2 j (le_refl _) n e xj hj he hxj).1
    refine ⟨by unfold Elem.aligned; rw [hreg.aligned j e w he hw]; rfl, ?_⟩
    obtain ⟨v, p, hp⟩ := hacc.scores j e he hc
    unfold Elem.percentile at hp
    obtain ⟨t, ht, -⟩ := bind_ok_iff.mp hp
    exact ⟨t, ht⟩)
  have hf : ∀ g ∈ grid.filter (fun g => decide (2 ≤ g.acts.length)), ∃ f,
      mkFeat ext b x b.aset.cons.flatNames g = .ok f ∧ checkFeat b.aset.yDesired b.aset.cons.flatNames f = true := by
    intro g hg
    rw [List.mem_filter, decide_eq_true_iff] at hg
    exact feat_total hso hb hlog hreg hacc hgrid hg.1 hg.2
  obtain ⟨feats, hfs⟩ := mapM_total fun g hg => (hf g hg).imp fun _ h => h.1
  refine ⟨feats, ?_⟩
  unfold Builder.buildInfo
  rw [hgrid, ok_bind, hfs, ok_bind, (List.all_eq_true (p := checkFeat b.aset.yDesired b.aset.cons.flatNames)).mpr]
  · rfl
  · intro f hf'
    obtain ⟨g, hg, hgf⟩ := mapM_ok_mem hfs hf'
    obtain ⟨f', h1, h2⟩ := hf g hg
    rw [hgf] at h1; cases h1
    exact h2

/-- Column numbers of subset limits are positions in the list of usable features. -/
theorem limits_total (hso : SetOrderOk ext) (hb : BuilderOK ext b) {feats : List (Feat K)}
    (h : b.buildInfo ext x = .ok feats) (hla : LimitsApply b.aset x) (be : Backend) :
    ∃ lims, b.aset.cons.items.mapM (limitCons be feats) = .ok lims := by
  refine mapM_total ?_
  intro k hkm
  have hw := hb.aset.wf.cons k hkm
  obtain ⟨vs, hvs⟩ : ∃ vs, nullNames feats k.indices = .ok vs := by
    refine mapM_total ?_
    intro j hj
    have hjn : b.aset.names[j]? ∈ k.names.map some := by
      rw [hw.position]; exact List.mem_map.mpr ⟨j, hj, rfl⟩
    obtain ⟨n, hnk, hn⟩ := List.mem_map.mp hjn
    obtain ⟨-, hu⟩ := hla j n hn.symm ⟨k, hkm, hnk⟩
    obtain ⟨R, hR⟩ := feats_prefix hso hb h (m := j + 1) (fun i hi => hu i (by omega))
    have hlt : j < b.aset.names.length := (List.getElem?_eq_some_iff.mp hn.symm).1
    have hfl : j < feats.length := by
      have := congrArg List.length hR
      rw [List.length_append, List.length_take, List.length_map] at this
      omega
    exact ⟨_, by rw [List.getElem?_eq_getElem hfl]⟩
  cases be
  · exact ⟨_, by unfold limitCons limitConsCpx; dsimp only; rw [hvs]; rfl⟩
  · exact ⟨_, by unfold limitCons limitConsPy; dsimp only; rw [hvs]; rfl⟩

/-- A point is only accepted if percentiles can be computed for the compatible features. -/
theorem setX_scores (hso : SetOrderOk ext) (hb : BuilderOK ext b) (h : (b.setX ext x).2 = .ok ()) :
    ∀ (j : ℕ) (e : Elem K), b.aset.elems[j]? = some e → e.compatible ≠ some false →
      ∃ v p, e.percentile ext v = .ok p := by
  have hwf := hb.aset.wf
  rw [setX_status] at h
  by_cases hl : x.length ≠ b.coefs.length
  · rw [if_pos hl] at h; cases h
  rw [if_neg hl] at h
  obtain ⟨feats, hfs, h⟩ := bind_ok_iff.mp h
  obtain ⟨-, hxl, -, -⟩ := buildInfo_spec hso hb hfs
  intro j e he hc
  have hjlt : j < b.aset.names.length := by rw [← hwf.length]; exact (List.getElem?_eq_some_iff.mp he).1
  obtain ⟨n, hn⟩ : ∃ n, b.aset.names[j]? = some n := ⟨_, List.getElem?_eq_getElem hjlt⟩
  obtain ⟨xj, hxj⟩ : ∃ xj, x[j]? = some xj := ⟨_, List.getElem?_eq_getElem (by rw [hxl]; exact hjlt)⟩
  unfold Builder.buildInfo at hfs
  simp only [bind_ok_iff] at hfs
  obtain ⟨grid, hgrid, -⟩ := hfs
  obtain ⟨-, -, g3⟩ := C20_feasible_grid hso hb.aset hgrid
  obtain ⟨h1, h2⟩ := g3 j n e xj hn he hxj
  obtain ⟨g, hg, hgn⟩ := h1.mpr (Or.inl hc)
  obtain ⟨-, h4⟩ := h2 g hg hgn
  unfold Elem.feasiblePercentiles at h4
  obtain ⟨t, ht, -⟩ := bind_ok_iff.mp h4
  exact ⟨0, t.eval 0, by unfold Elem.percentile; rw [ht]; rfl⟩

/-- **C88**: in regular situations, the assignment `b.x = x` succeeds exactly if the point is acceptable.  The
intercept, the predicted outcome of the point, the item limits and the back end play no role. -/
theorem C88_accepts (hso : SetOrderOk ext) (hlog : LogIncreasing ext) (hr : b.Reachable ext)
    (hreg : Regular ext b x) : (b.setX ext x).2 = .ok () ↔ Acceptable ext b x := by
  have hb := hr.ok
  have hwf := hb.aset.wf
  constructor
  · intro hst
    have h := hst
    rw [setX_status] at h
    by_cases hl : x.length ≠ b.coefs.length
    · rw [if_pos hl] at h; cases h
    rw [if_neg hl] at h
    push Not at hl
    obtain ⟨feats, hfs, h⟩ := bind_ok_iff.mp h
    obtain ⟨-, hxl, hspec, hall⟩ := buildInfo_spec hso hb hfs
    have hcol : ∀ j, UsableColumn b.aset x j → j < b.coefs.length → ∃ f ∈ feats, f.idx = j := by
      intro j hu hj
      rw [hb.coefs] at hj
      obtain ⟨n, hn⟩ : ∃ n, b.aset.names[j]? = some n := ⟨_, List.getElem?_eq_getElem hj⟩
      obtain ⟨e, he⟩ : ∃ e, b.aset.elems[j]? = some e :=
        ⟨_, List.getElem?_eq_getElem (by rw [hwf.length]; exact hj)⟩
      obtain ⟨xj, hxj⟩ : ∃ xj, x[j]? = some xj := ⟨_, List.getElem?_eq_getElem (by rw [hxl]; exact hj)⟩
      obtain ⟨f, hf, -, hfi⟩ := hall j n e xj hn he hxj (Or.inl (hu n e xj hn he hxj).1)
        (offers_of_usable hu hn he hxj)
      exact ⟨f, hf, hfi⟩
    have hlisted : ∀ (j : ℕ) (n : String) (e : Elem K) (xj : K), b.aset.names[j]? = some n →
        b.aset.elems[j]? = some e → x[j]? = some xj → Listed b.aset n →
        ∃ f ∈ feats, f.name = n ∧ ∃ t T, FeatSpec ext b x f e xj t T := by
      intro j n e xj hn he hxj hlist
      have hu := (hreg.limits j n hn hlist).2 j (le_refl _)
      obtain ⟨f, hf, hfn, hfi⟩ := hall j n e xj hn he hxj (Or.inl (hu n e xj hn he hxj).1)
        (offers_of_usable hu hn he hxj)
      obtain ⟨e', xj', t, T, hs⟩ := hspec f hf
      have h1 := hs.elem
      have h2 := hs.val
      rw [hfi] at h1 h2
      rw [he] at h1; rw [hxj] at h2
      cases h1; cases h2
      exact ⟨f, hf, hfn, t, T, hs⟩
    refine ⟨hl, ?_, ?_, ?_, ?_, ?_⟩
    · exact setX_scores hso hb hst
    · intro j w hw hu
      obtain ⟨f, hf, hfi⟩ := hcol j hu (List.getElem?_eq_some_iff.mp hw).1
      obtain ⟨e', xj', t, T, hs⟩ := hspec f hf
      have h1 := hs.coef
      rw [hfi, hw] at h1; cases h1
      exact isClose_zero.mp (checkFeat_iff.mp hs.check).1
    · intro j n e xj hn he hxj hlist
      obtain ⟨f, hf, hfn, t, T, hs⟩ := hlisted j n e xj hn he hxj hlist
      have hmem : ∀ v, Permitted e xj v → v = xj ∨ v ∈ T := by
        intro v hv
        by_cases hvx : v = xj
        · exact Or.inl hvx
        · refine Or.inr ((hs.mem_T hb v).mpr ⟨hvx, hv, fun hd => ?_⟩)
          exact absurd (hfn ▸ listed_iff.mpr hlist) (of_decide_eq_true hd)
      cases hup : (buildOrder (e.feasX xj (dropOf b f)) xj).1 with
      | true =>
        left
        intro v hv
        rcases hmem v hv with rfl | hv
        · exact le_refl _
        · rcases hs.side hb v hv with ⟨-, h⟩ | ⟨h, -⟩
          · exact h.le
          · rw [hup] at h; cases h
      | false =>
        right
        intro v hv
        rcases hmem v hv with rfl | hv
        · exact le_refl _
        · rcases hs.side hb v hv with ⟨h, -⟩ | ⟨-, h⟩
          · rw [hup] at h; cases h
          · exact h.le
    · intro j n e xj hn he hxj hlist hpos
      obtain ⟨f, hf, hfn, t, T, hs⟩ := hlisted j n e xj hn he hxj hlist
      have hnul := hs.null.1 ⟨hfn ▸ listed_iff.mpr hlist, hpos⟩
      have hlt : f.kNull < f.actions.length := (List.getElem?_eq_some_iff.mp hnul).1
      have hp := hs.permitted hb (κ := fun _ => f.kNull) hlt
      unfold Feat.act at hp
      rwa [List.getD_eq_getElem?_getD, hnul, Option.getD_some, add_neg_cancel] at hp
    · by_cases hct : b.costType = .max
      · exact Or.inl hct
      · right
        have hm : ∃ m, buildMip b.backend (b.buildArgs x feats) = .ok m := by
          cases hm : buildMip b.backend (b.buildArgs x feats) with
          | ok m => exact ⟨m, rfl⟩
          | error er => rw [hm] at h; cases h
        have hne : feats ≠ [] := by
          rintro rfl
          obtain ⟨m, hm⟩ := hm
          cases hbe : b.backend with
          | cpx =>
            rw [hbe] at hm
            unfold buildMip buildCpx at hm
            obtain ⟨_, -, hm⟩ := bind_ok_iff.mp hm
            rw [if_pos ⟨hct, rfl⟩] at hm; cases hm
          | pymip =>
            rw [hbe] at hm
            unfold buildMip buildPy at hm
            obtain ⟨_, -, hm⟩ := bind_ok_iff.mp hm
            rw [if_pos ⟨hct, rfl⟩] at hm; cases hm
        obtain ⟨f, hf⟩ := List.exists_mem_of_ne_nil _ hne
        obtain ⟨e, xj, t, T, hs⟩ := hspec f hf
        have hc : e.compatible ≠ some false := by
          rcases hs.usable with h | h
          · exact h
          · exact ((hreg.limits f.idx f.name hs.name (listed_iff.mp h)).2 f.idx (le_refl _) f.name e xj hs.name
              hs.elem hs.val).1
        have ha := (compatible_parts (hreg.aligned f.idx e f.coef hs.elem hs.coef) hc).1
        exact ⟨f.idx, (List.getElem?_eq_some_iff.mp hs.coef).1,
          usable_of_offers hb hreg hs.name hs.elem hs.val hc ha hs.len⟩
  · intro hacc
    rw [setX_status]
    rw [if_neg (not_not.mpr hacc.length)]
    obtain ⟨feats, hfs⟩ := buildInfo_total hso hb hlog hreg hacc
    rw [hfs, ok_bind]
    obtain ⟨lims, hlims⟩ := limits_total hso hb hfs hreg.limits b.backend
    have hne : b.costType ≠ .max → feats ≠ [] := by
      intro hct
      obtain ⟨j, hj, hu⟩ := hacc.some.resolve_left hct
      obtain ⟨-, hxl, -, hall⟩ := buildInfo_spec hso hb hfs
      rw [hb.coefs] at hj
      obtain ⟨n, hn⟩ : ∃ n, b.aset.names[j]? = some n := ⟨_, List.getElem?_eq_getElem hj⟩
      obtain ⟨e, he⟩ : ∃ e, b.aset.elems[j]? = some e :=
        ⟨_, List.getElem?_eq_getElem (by rw [hwf.length]; exact hj)⟩
      obtain ⟨xj, hxj⟩ : ∃ xj, x[j]? = some xj := ⟨_, List.getElem?_eq_getElem (by rw [hxl]; exact hj)⟩
      obtain ⟨f, hf, -⟩ := hall j n e xj hn he hxj (Or.inl (hu n e xj hn he hxj).1)
        (offers_of_usable hu hn he hxj)
      exact List.ne_nil_of_mem hf
    rw [buildMip_mk (p := b.buildArgs x feats) (lims := lims) hlims hne]
    rfl

end Recourse
