import Verif.Props.CostTypes
import Verif.Props.Audit
import Verif.Props.Values

/-!
# C118: the scale of percentiles and costs
-/

set_option linter.unusedSectionVars false

namespace Recourse

variable {K : Type} [Field K] [LinearOrder K] [IsStrictOrderedRing K] [FloorRing K]

variable {ext : Ext K} {o : Oracle K} {b0 b1 b b' : Builder K} {x : List K} {i : Info K}

/-- Tables made with any buffers: scores between 0 and 1. -/
structure Table.Fair (t : Table K) : Prop where
  xs : t.xs.Pairwise (· < ·)
  ys : t.ys.Pairwise (· < ·)
  len : t.xs.length = t.ys.length
  ne : t.xs ≠ []
  range : ∀ y ∈ t.ys, 0 ≤ y ∧ y ≤ 1
  lo : 0 ≤ t.lo ∧ t.lo ≤ 1
  hi : 0 ≤ t.hi ∧ t.hi ≤ 1

theorem newTable_fair {e : Elem K} {t : Table K} {l r : K} (hg : e.GridOk)
    (hpos : ∀ pdf, ext.kde e.values = .ok pdf → ∀ v, 0 < pdf v) (h : e.newTable ext l r = .ok t) : t.Fair := by
  obtain ⟨pdf, hpdf, ⟨l0, l1⟩, ⟨r0, r1⟩, hlr, rfl⟩ := newTable_spec h
  have hp : ∀ p ∈ e.grid.vals.map pdf, 0 < p := by
    intro p hp
    obtain ⟨v, -, rfl⟩ := List.mem_map.mp hp
    exact hpos pdf hpdf v
  obtain ⟨c1, c2, c3⟩ := cumsumFrom_spec hp 0
  have hlen : (cumsum (e.grid.vals.map pdf)).length = e.grid.vals.length := by
    simp [cumsum, cumsumFrom_length]
  have hne : cumsum (e.grid.vals.map pdf) ≠ [] := by
    intro h0
    rw [h0] at hlen
    exact hg.1 (List.length_eq_zero_iff.mp hlen.symm)
  have htot : 0 < (cumsum (e.grid.vals.map pdf)).getLastD 0 + l + r := by
    obtain ⟨c, hc⟩ := List.exists_mem_of_ne_nil _ hne
    have h1 : (0 : K) < c := c2 c hc
    have h2 : c ≤ _ := c3 c hc
    have : 0 < (cumsum (e.grid.vals.map pdf)).getLastD 0 := h1.trans_le h2
    linarith
  refine ⟨hg.2, ?_, by simp [hlen], hg.1, ?_, ⟨l0, l1.le⟩, by constructor <;> simp only <;> linarith⟩
  · rw [List.pairwise_map]
    refine List.Pairwise.imp ?_ c1
    intro a b hab
    exact div_lt_div_of_pos_right (by linarith) htot
  · intro y hy
    obtain ⟨c, hc, rfl⟩ := List.mem_map.mp hy
    have h1 : (0 : K) < c := c2 c hc
    have h2 : c ≤ (cumsum (e.grid.vals.map pdf)).getLastD 0 := c3 c hc
    exact ⟨div_nonneg (by linarith) htot.le, (div_le_one htot).mpr (by linarith)⟩

theorem Table.Fair.eval_range {t : Table K} (ht : t.Fair) (a : K) : 0 ≤ t.eval a ∧ t.eval a ≤ 1 := by
  obtain ⟨xs, ys, lo, hi⟩ := t
  obtain ⟨h2, h3, h4, h5, h6, h7, h8⟩ := ht
  cases xs with
  | nil => exact absurd rfl h5
  | cons g0 gs =>
    cases ys with
    | nil => simp at h4
    | cons y0 ys =>
      simp only at *
      unfold Table.eval
      simp only [List.headD_cons, List.getLastD_cons]
      split_ifs with c1 c2
      · exact h7
      · exact h8
      · have := interpSeg_bounds h2 h3 (by simpa using h4) (not_lt.mp c1) (not_lt.mp c2)
        have hm : ys.getLastD y0 ∈ (y0 :: ys) := by
          cases ys with
          | nil => simp
          | cons y1 ys => rw [List.getLastD_cons]; exact List.mem_cons_of_mem _ (by
              have := List.getLast_mem (l := y1 :: ys) (by simp)
              rwa [List.getLast_eq_getLastD] at this)
        exact ⟨(h6 y0 (by simp)).1.trans this.1, this.2.trans (h6 _ hm).2⟩

/-- The table of a feature, whatever its history. -/
theorem Elem.Reachable.fair {e : Elem K} (hpos : ∀ vals pdf, ext.kde vals = .ok pdf → ∀ v, 0 < pdf v)
    (h : e.Reachable ext) : ∀ t, e.cache = some t → t.Fair := by
  induction h with
  | mk h =>
    intro t ht
    obtain ⟨-, -, -, -, -, -, -, -, -, hc⟩ := mkElem_spec h
    rw [hc] at ht; cases ht
  | set hr h ih =>
    intro t ht
    rw [(setAttr_grid h).2.1] at ht
    exact ih t ht
  | update hr h ih =>
    intro t ht
    unfold Elem.updateGrid at h
    obtain ⟨g, -, h⟩ := bind_ok_iff.mp h
    cases h
    exact ih t ht
  | touch hr ih =>
    intro t ht
    unfold Elem.fillCache at ht
    cases hT : Elem.table ext _ with
    | error er => rw [hT] at ht; exact ih t ht
    | ok T =>
      rw [hT] at ht
      cases ht
      unfold Elem.table at hT
      split at hT
      · rename_i t' hc
        cases hT
        exact ih _ hc
      · exact newTable_fair hr.inv.2 (hpos _) hT
  | interp hr h ih =>
    intro t ht
    unfold Elem.updateInterpolator at h
    obtain ⟨T, hT, h⟩ := bind_ok_iff.mp h
    cases h
    cases ht
    exact newTable_fair hr.inv.2 (hpos _) hT

/-- **C118**, percentiles: `percentile(v)` of a feature is between 0 and 1, whatever the history of the feature (also after
`update_grid`, and with any buffers), for every value. -/
theorem C118_percentile {e : Elem K} (hpos : ∀ vals pdf, ext.kde vals = .ok pdf → ∀ v, 0 < pdf v)
    (hr : e.Reachable ext) {v p : K} (h : e.percentile ext v = .ok p) : 0 ≤ p ∧ p ≤ 1 := by
  unfold Elem.percentile at h
  obtain ⟨t, ht, h⟩ := bind_ok_iff.mp h
  cases h
  unfold Elem.table at ht
  split at ht
  · rename_i t' hc
    cases ht
    exact (hr.fair hpos _ hc).eval_range v
  · exact (newTable_fair hr.inv.2 (hpos _) ht).eval_range v

/-- **C118**, changes: a percentile shift is at most 1. -/
theorem C118_move {ct : CostType} {e : Elem K} (hpos : ∀ vals pdf, ext.kde vals = .ok pdf → ∀ v, 0 < pdf v)
    (hr : e.Reachable ext) (hct : ct ≠ .loc) {u v c : K} (h : MoveCost ext ct e u v c) : c ≤ 1 := by
  obtain ⟨p, q, h1, h2, h3⟩ := h
  rw [if_neg hct] at h3
  have := C118_percentile hpos hr h1
  have := C118_percentile hpos hr h2
  rw [h3, abs_le]
  constructor <;> linarith

/-- Costs of percentile shifts are at most 1 each. -/
theorem actionCosts_le_one {ct : CostType} {A : ActionSet K} {a cs : List K}
    (hpos : ∀ vals pdf, ext.kde vals = .ok pdf → ∀ v, 0 < pdf v) (he : ∀ e ∈ A.elems, e.Reachable ext)
    (hel : A.elems.length = x.length) (hal : a.length = x.length) (hct : ct ≠ .loc) (h : ActionCosts ext ct A x a cs) :
    ∀ v ∈ cs, v ≤ 1 := by
  intro v hv
  obtain ⟨j, hj, rfl⟩ := List.mem_iff_getElem.mp hv
  have hjx : j < x.length := by rw [← h.1]; exact hj
  have hje : j < A.elems.length := by omega
  have hja : j < a.length := by omega
  obtain ⟨c1, c2⟩ := h.2 j _ _ _ _ (List.getElem?_eq_getElem hje) (List.getElem?_eq_getElem hjx)
    (List.getElem?_eq_getElem hja) (List.getElem?_eq_getElem hj)
  by_cases h0 : a[j] = 0
  · rw [c1 h0]; exact zero_le_one
  · exact C118_move hpos (he _ (List.getElem_mem hje)) hct (c2 h0)

/-- **C118**, answers: with cost type `max` the cost of an answer is between 0 and 1, with cost type `total` between 0 and the
number of changes, and each listed cost is at most 1. -/
theorem C118_answer (hpos : ∀ vals pdf, ext.kde vals = .ok pdf → ∀ v, 0 < pdf v) (hso : SetOrderOk ext)
    (hlog : LogOk ext) (ho : o.Exact) (hr : b0.Reachable ext) (hct : b0.costType ≠ .loc)
    (hx : b0.setX ext x = (b1, .ok ())) (ha : b1.After o b) (hf : b.fit o = .ok (b', i)) (hi : i.feasible = true) :
    ∃ a cs c, i.actions = some a ∧ i.costs = some cs ∧ i.cost = .fin c ∧ (∀ v ∈ cs, v ≤ 1) ∧
      0 < c ∧ c ≤ (numChanged a : K) ∧ (b0.costType = .max → c ≤ 1) := by
  obtain ⟨a, cs, c, k1, k2, k3, k4, k5, k6, k7⟩ := C28_costs hso hlog ho hr (fun h => absurd h hct) hx ha hf hi
  obtain ⟨a0, k8, har⟩ := C22_actionable hso ho.1 hr hx ha hf hi
  rw [k1] at k8; obtain rfl := Option.some.inj k8
  have hel : b0.aset.elems.length = x.length := by
    obtain ⟨feats, h1, -⟩ := Posed.setX hso hr.ok hx
    obtain ⟨-, hxl, -⟩ := buildInfo_spec hso hr.ok h1
    rw [hr.ok.aset.wf.length, hxl]
  have hal := har.permitted.1
  have hone := actionCosts_le_one hpos hr.ok.aset.wf.elems hel hal hct k4
  have hcl : cs.length = a.length := by rw [k4.1, hal]
  have h1 : 1 ≤ numChanged a := le_trans (le_max_right _ _) har.min
  have hpos' : ∃ v ∈ cs, 0 < v := by
    unfold numChanged at h1
    obtain ⟨u, hu, h0⟩ := List.countP_pos_iff.mp h1
    obtain ⟨j, hj, rfl⟩ := List.mem_iff_getElem.mp hu
    exact ⟨cs[j], List.getElem_mem _, (k5 j _ _ (List.getElem?_eq_getElem hj) (List.getElem?_eq_getElem (by omega))).2
      (by simpa using h0)⟩
  have hnn : ∀ v ∈ cs, 0 ≤ v := by
    intro v hv
    obtain ⟨j, hj, rfl⟩ := List.mem_iff_getElem.mp hv
    obtain ⟨q1, q2⟩ := k5 j _ _ (List.getElem?_eq_getElem (l := a) (by omega)) (List.getElem?_eq_getElem hj)
    by_cases h : a[j] = 0
    · exact (q1 h).ge
    · exact (q2 h).le
  obtain ⟨v, hv, hv0⟩ := hpos'
  have hsum : cs.sum ≤ (numChanged a : K) := by
    have := sum_le_changed (M := 1) hcl hone (fun j aj cj g1 g2 g3 => (k5 j aj cj g1 g2).1 g3)
    rwa [mul_one] at this
  have hn1 : (1 : K) ≤ (numChanged a : K) := by exact_mod_cast h1
  refine ⟨a, cs, c, k1, k2, k3, hone, ?_⟩
  by_cases hm : b0.costType = .max
  · obtain ⟨m1, m2⟩ := k6 hm
    exact ⟨lt_of_lt_of_le hv0 (m2 v hv), le_trans (hone c m1) hn1, fun _ => hone c m1⟩
  · rw [k7 hm]
    exact ⟨lt_of_lt_of_le hv0 (List.single_le_sum hnn v hv), hsum, fun h => absurd h hm⟩

/-- **C118**, audits: the finite costs in the table of an audit are positive and at most 1. -/
theorem C118_audit {ι : Type} {ad ad' : Auditor K} {X : List (ι × List K)} {y : Int} {T : List (ι × AuditRow K)}
    (hpos : ∀ vals pdf, ext.kde vals = .ok pdf → ∀ v, 0 < pdf v) (hso : SetOrderOk ext)
    (hlog : LogOk ext) (ho : o.Exact) (hr : ad.Reachable ext) (h : ad.audit ext o X y = (ad', .ok T)) :
    ∀ l row, (l, row) ∈ T → row.cost = .nan ∨ row.cost = .inf ∨ ∃ c, row.cost = .fin c ∧ 0 < c ∧ c ≤ 1 := by
  intro l row hm
  obtain ⟨k, hk⟩ := List.getElem?_of_mem hm
  obtain ⟨hlab, -⟩ := C44_rows hr h
  obtain ⟨⟨l', x⟩, hX⟩ : ∃ p, X[k]? = some p := by
    have hl : T.length = X.length := by simpa using congrArg List.length hlab
    have : k < X.length := by rw [← hl]; exact (List.getElem?_eq_some_iff.mp hk).1
    exact ⟨_, List.getElem?_eq_getElem this⟩
  obtain ⟨h1, h2⟩ := audit_entry hr h hX hk
  by_cases hh : HasOutcome y ad.coefs ad.intercept x
  · rw [h1 hh]; exact Or.inl rfl
  obtain ⟨hb, hw, ht, hct⟩ := hr.inv
  obtain ⟨n, b1, b', i, e1, e2, rfl⟩ := h2 hh
  cases hi : i.feasible with
  | false =>
    right; left
    obtain ⟨feats, -, hfo, h3⟩ := Posed.setX hso hb.ok e1
    obtain ⟨-, -, rfl⟩ := fit_ok e2
    rcases h3.solved hfo (ho.at n).1 with ⟨-, he, -⟩ | ⟨σ, κ, -, -, -, -, hrep, -⟩
    · rw [he]; rfl
    · rw [hrep.feasible] at hi; cases hi
  | true =>
    right; right
    obtain ⟨a, cs, c, -, -, k3, -, k4, -, k5⟩ := C118_answer hpos hso hlog (ho.at n) hb (by rw [hct]; decide) e1 .refl e2 hi
    exact ⟨c, k3, k4, k5 hct⟩

/-- The bounds of C118 are reached: with buffers 0 a value left of the grid has percentile 0, the end of the grid has percentile
1, and going from one to the other costs 1.  (With the default buffers percentiles are strictly between 0 and 1, see C08.) -/
theorem C118_reached : ∃ e e' : Elem ℚ, e.Reachable exExt ∧ e.updateInterpolator exExt 0 0 = .ok e' ∧ e'.Reachable exExt ∧
    e'.percentile exExt (-1) = .ok 0 ∧ e'.percentile exExt 2 = .ok 1 ∧ MoveCost exExt .total e' (-1) 2 1 := by
  have key : ∃ e : Elem ℚ, mkElem "a" [0, 2] (.tuple [.flt 0, .flt 2]) none true (.str "absolute") 0 (.int 1) = .ok e ∧
      ∃ e', e.updateInterpolator exExt 0 0 = .ok e' ∧
      e'.percentile exExt (-1) = .ok 0 ∧ e'.percentile exExt 2 = .ok 1 := by decide +kernel
  obtain ⟨e, h1, e', h2, h3, h4⟩ := key
  exact ⟨e, e', .mk h1, h2, .interp (.mk h1) h2, h3, h4, ⟨0, 1, h3, h4, by decide +kernel⟩⟩

/-- The hypotheses of `C118_answer` and `C118_audit` are met by the cases of C28 and C45; here for both cost types on two
features that both have to be changed: the cost of type `max` is at most 1, the cost of type `total` at most 2. -/
theorem C118_example (be : Backend) (ct : CostType) (hct : ct ≠ .loc) : ∃ b0 b1 : Builder ℚ, b0.Reachable exExt ∧
    b0.costType = ct ∧ b0.setX exExt [0, 0] = (b1, .ok ()) ∧ ∀ o : Oracle ℚ, o.Exact → ∃ b' i, b1.fit o = .ok (b', i) ∧
      i.feasible = true ∧ i.actions = some [1, 1] ∧
      i.cost = .fin (if ct = .max then 500000 / 1000001 else 1000000 / 1000001) := by
  have key : ∀ be, ∀ ct ∈ [CostType.total, CostType.max], ∃ b0 : Builder ℚ,
      exBuilderE be ct [[0, 0], [1, 1]] ["a", "b"] .ok [1, 1] (-2) = .ok b0 ∧ b0.costType = ct ∧
      (b0.setX exExt [0, 0]).2 = .ok () ∧
      admitted (b0.buildArgs [0, 0] (b0.setX exExt [0, 0]).1.feats) (fun _ => true) ≠ [] ∧
      (∀ κ ∈ optChoices (b0.buildArgs [0, 0] (b0.setX exExt [0, 0]).1.feats) (fun _ => true),
        actVec b0.coefs.length (b0.setX exExt [0, 0]).1.feats κ = [1, 1] ∧
        choiceSum (b0.setX exExt [0, 0]).1.feats κ = 1000000 / 1000001 ∧
        choiceMax (b0.setX exExt [0, 0]).1.feats κ = 500000 / 1000001) := by
    intro be; cases be <;> decide +kernel
  obtain ⟨b0, h1, h2, h5, h10, h11⟩ := key be ct (by cases ct <;> simp at hct ⊢)
  have hr : b0.Reachable exExt := exBuilderE_reachable h1 fun A A' => prep_ok
  obtain ⟨b1, hs⟩ : ∃ b1, b0.setX exExt [0, 0] = (b1, .ok ()) := ⟨_, Prod.ext rfl h5⟩
  refine ⟨b0, b1, hr, h2, hs, fun o ho => ?_⟩
  obtain ⟨b1', feats, g1, -, g2, b3, i, g3, g4⟩ := exSolve exExt_order hr h5 ho
  rw [hs] at g1; cases g1
  rw [g2] at h10 h11
  rcases g4 with ⟨h, -⟩ | ⟨κ, hκ, -, gf, ga, gcs, gc, -⟩
  · exact absurd h h10
  obtain ⟨e1, e2, e3⟩ := h11 κ hκ
  exact ⟨b3, i, g3, gf, by rw [ga, e1], by rw [gc, h2, e2, e3]⟩

end Recourse
