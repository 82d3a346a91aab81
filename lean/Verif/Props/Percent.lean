import Verif.Props.Values

/-!
# Property C56: percentiles refer to the current grid
-/

set_option linter.unusedSectionVars false

namespace Recourse

variable {K : Type} [Field K] [LinearOrder K] [IsStrictOrderedRing K] [FloorRing K]

/-! ## Specification -/

/-- The percentile of the `k`-th value of the grid `g` under the density `pdf`: the share of density mass at
grid values up to it, with a millionth added on either side. -/
def gridPercentile (pdf : K → K) (g : List K) (k : ℕ) : K :=
  (1 / 10 ^ 6 + ((g.take (k + 1)).map pdf).sum) / ((g.map pdf).sum + 2 / 10 ^ 6)

/-- `percentile` of the feature is the interpolated distribution function of its data over its present grid. -/
def DescribesGrid (ext : Ext K) (e : Elem K) : Prop :=
  ∀ pdf, ext.kde e.values = .ok pdf →
    (∀ (k : ℕ) (v : K), e.grid.vals[k]? = some v →
      e.percentile ext v = .ok (gridPercentile pdf e.grid.vals k)) ∧
    (∀ (k : ℕ) (u w v : K), e.grid.vals[k]? = some u → e.grid.vals[k + 1]? = some w → u ≤ v → v ≤ w →
      e.percentile ext v = .ok (gridPercentile pdf e.grid.vals k +
        (gridPercentile pdf e.grid.vals (k + 1) - gridPercentile pdf e.grid.vals k) * (v - u) / (w - u))) ∧
    (∀ v : K, (∀ g ∈ e.grid.vals, v < g) → e.percentile ext v = .ok (1 / 10 ^ 6)) ∧
    (∀ v : K, (∀ g ∈ e.grid.vals, g < v) → e.percentile ext v = .ok (1 - 1 / 10 ^ 6))

/-! ## Proof -/

theorem cumsumFrom_getElem? (acc : K) (l : List K) (k : ℕ) (hk : k < l.length) :
    (cumsumFrom acc l)[k]? = some (acc + (l.take (k + 1)).sum) := by
  induction l generalizing acc k with
  | nil => simp at hk
  | cons p t ih =>
    cases k with
    | zero => simp [cumsumFrom]
    | succ k =>
      simp only [cumsumFrom, List.getElem?_cons_succ]
      rw [ih (acc + p) k (by simpa using hk)]
      simp [add_assoc]

theorem cumsum_getLastD {l : List K} : (cumsum l).getLastD 0 = l.sum := by
  by_cases hl : l = []
  · subst hl; simp [cumsum, cumsumFrom]
  · have hlen : (cumsum l).length = l.length := cumsumFrom_length 0 l
    have hpos : 0 < l.length := List.length_pos_iff.mpr hl
    rw [List.getLastD_eq_getLast?, List.getLast?_eq_getElem?, hlen]
    unfold cumsum
    rw [cumsumFrom_getElem? 0 l _ (by omega)]
    simp [Nat.sub_add_cancel hpos]

theorem interpSeg_between {gs ys : List K} (hg : gs.Pairwise (· < ·)) (hl : gs.length = ys.length)
    {k : ℕ} {u w p q x : K} (hu : gs[k]? = some u) (hw : gs[k + 1]? = some w) (hp : ys[k]? = some p)
    (hq : ys[k + 1]? = some q) (h0 : u ≤ x) (h1 : x ≤ w) :
    interpSeg gs ys x = p + (q - p) / (w - u) * (x - u) := by
  induction k generalizing gs ys with
  | zero =>
    match gs, ys, hl with
    | g0 :: g1 :: gs, y0 :: y1 :: ys, _ =>
      simp only [List.getElem?_cons_zero, Option.some.injEq, zero_add, List.getElem?_cons_succ] at hu hw hp hq
      subst hu hw hp hq
      rw [interpSeg, if_pos h1]
    | [g0], _, _ => simp at hw
    | [], _, _ => simp at hu
    | _ :: _ :: _, [], h => simp at h
    | _ :: _ :: _, [_], h => simp at h
  | succ k ih =>
    match gs, ys, hl with
    | g0 :: g1 :: gs, y0 :: y1 :: ys, hl =>
      simp only [List.getElem?_cons_succ] at hu hw hp hq
      have ih' := ih (gs := g1 :: gs) (ys := y1 :: ys) hg.of_cons (by simpa using hl) hu hw hp hq
      rw [interpSeg]
      split_ifs with hx
      · -- x ≤ g1 ≤ u ≤ x
        have hle : g1 ≤ u := by
          cases k with
          | zero => simp at hu; exact hu.le
          | succ k =>
            simp only [List.getElem?_cons_succ] at hu
            exact ((List.pairwise_cons.mp hg.of_cons).1 u (List.mem_of_getElem? hu)).le
        have hxu : x = u := le_antisymm (hx.trans hle) h0
        have hgu : g1 = u := le_antisymm hle (h0.trans hx)
        have hk : k = 0 := by
          cases k with
          | zero => rfl
          | succ k =>
            simp only [List.getElem?_cons_succ] at hu
            exact absurd ((List.pairwise_cons.mp hg.of_cons).1 u (List.mem_of_getElem? hu)) (by rw [hgu]; exact lt_irrefl _)
        subst hk
        simp only [List.getElem?_cons_zero, Option.some.injEq] at hp
        have hlt : g0 < g1 := (List.pairwise_cons.mp hg).1 g1 (by simp)
        rw [hxu, ← hgu, div_mul_cancel₀ _ (sub_pos.mpr hlt).ne', ← hp]
        ring
      · exact ih'
    | [g0], _, _ => simp at hw
    | [], _, _ => simp at hu
    | _ :: _ :: _, [], h => simp at h
    | _ :: _ :: _, [_], h => simp at h

theorem pbuf_ok : (0 : K) ≤ pbuf ∧ (pbuf : K) < 1 ∧ (pbuf : K) + pbuf < 1 := by
  have h : (pbuf : K) < 1 / 2 := by
    unfold pbuf
    rw [div_lt_div_iff₀ (by positivity) (by positivity)]
    norm_num
  have h2 : (1 : K) / 2 + 1 / 2 = 1 := add_halves 1
  refine ⟨pbuf_pos.le, by linarith [pbuf_pos (K := K)], by linarith⟩

theorem freshTable_of_kde {ext : Ext K} {e : Elem K} {pdf : K → K} (h : ext.kde e.values = .ok pdf) :
    ∃ t, e.freshTable ext = .ok t := by
  have hb := pbuf_ok (K := K)
  have a1 : decide (0 ≤ (pbuf : K) ∧ (pbuf : K) < 1) = true := decide_eq_true ⟨hb.1, hb.2.1⟩
  have a2 : decide ((pbuf : K) + pbuf < 1) = true := decide_eq_true hb.2.2
  unfold Elem.freshTable Elem.newTable
  rw [a1, a2, h]
  exact ⟨_, rfl⟩

theorem DescribesGrid.of_table {ext : Ext K} {e : Elem K} (hr : e.Reachable ext)
    (ht : e.table ext = e.freshTable ext) : DescribesGrid ext e := by
  intro pdf hpdf
  obtain ⟨t, hf⟩ := freshTable_of_kde hpdf
  have hpc : ∀ v, e.percentile ext v = .ok (t.eval v) := by
    intro v; unfold Elem.percentile; rw [ht, hf]; rfl
  obtain ⟨pdf', hpdf', -, -, -, htt⟩ := newTable_spec hf
  rw [hpdf] at hpdf'; cases hpdf'
  have hgok := hr.inv.2
  set g := e.grid.vals with hg
  have hys : ∀ k : ℕ, k < g.length → t.ys[k]? = some (gridPercentile pdf g k) := by
    intro k hk
    rw [htt]
    simp only [List.getElem?_map]
    unfold cumsum
    rw [cumsumFrom_getElem? 0 _ k (by simpa using hk)]
    have := cumsum_getLastD (l := g.map pdf)
    unfold cumsum at this
    simp only [Option.map_some, this, zero_add, Option.some.injEq]
    unfold gridPercentile pbuf
    rw [← List.map_take]
    congr 1
    ring
  have hxs : t.xs = g := by rw [htt]
  have hlen : t.xs.length = t.ys.length := by rw [htt]; simp [cumsum, cumsumFrom_length]
  have hlo : t.lo = 1 / 10 ^ 6 := by rw [htt]; rfl
  have hhi : t.hi = 1 - 1 / 10 ^ 6 := by rw [htt]; rfl
  have hsorted : g.Pairwise (· < ·) := hgok.2
  have hne : g ≠ [] := hgok.1
  have hhead : ∀ (k : ℕ) (v : K), g[k]? = some v → g.headD 0 ≤ v := by
    intro k v hv
    cases hgg : g with
    | nil => exact absurd hgg hne
    | cons a l =>
      rw [hgg] at hv hsorted
      simp only [List.headD_cons]
      cases k with
      | zero => simp at hv; exact hv.le
      | succ k =>
        exact ((List.pairwise_cons.mp hsorted).1 v (List.mem_of_getElem? (by simpa using hv))).le
  have hlastmem : g.getLastD 0 ∈ g := by
    rw [List.getLastD_eq_getLast?, List.getLast?_eq_some_getLast hne]
    exact List.getLast_mem hne
  have hlast : ∀ v ∈ g, v ≤ g.getLastD 0 := by
    intro v hv
    rw [List.getLastD_eq_getLast?, List.getLast?_eq_some_getLast hne, Option.getD_some]
    obtain ⟨i, hi, rfl⟩ := List.getElem_of_mem hv
    rw [List.getLast_eq_getElem]
    rcases Nat.lt_or_ge i (g.length - 1) with hlt | hge
    · exact (List.pairwise_iff_getElem.mp hsorted i (g.length - 1) _ _ hlt).le
    · have : i = g.length - 1 := by omega
      simp [this]
  have hbetw : ∀ (k : ℕ) (u w v : K), g[k]? = some u → g[k + 1]? = some w → u ≤ v → v ≤ w →
      t.eval v = gridPercentile pdf g k +
        (gridPercentile pdf g (k + 1) - gridPercentile pdf g k) * (v - u) / (w - u) := by
    intro k u w v hu hw h0 h1
    have hk1 : k + 1 < g.length := (List.getElem?_eq_some_iff.mp hw).1
    unfold Table.eval
    rw [hxs, if_neg (not_lt.mpr ((hhead k u hu).trans h0)),
      if_neg (not_lt.mpr (h1.trans (hlast w (List.mem_of_getElem? hw)))),
      interpSeg_between hsorted (by rw [← hxs]; exact hlen) hu hw (hys k (by omega)) (hys (k + 1) hk1) h0 h1]
    ring
  refine ⟨?_, ?_, ?_, ?_⟩
  · intro k v hv
    rw [hpc]
    congr 1
    have hk : k < g.length := (List.getElem?_eq_some_iff.mp hv).1
    by_cases hk1 : k + 1 < g.length
    · have hlt : v < g[k + 1] := by
        have := List.pairwise_iff_getElem.mp hsorted k (k + 1) hk hk1 (by omega)
        rwa [(List.getElem?_eq_some_iff.mp hv).2] at this
      rw [hbetw k v _ v hv (List.getElem?_eq_getElem hk1) le_rfl hlt.le]
      simp
    · cases k with
      | zero =>
        have h1 : g = [v] := by
          cases hgg : g with
          | nil => exact absurd hgg hne
          | cons a l =>
            rw [hgg] at hv hk1
            simp at hv hk1
            rw [hk1, hv]
        have hy0 := hys 0 hk
        unfold Table.eval
        rw [hxs, h1]
        simp only [List.headD_cons, lt_irrefl, if_false, List.getLastD_cons, List.getLastD_nil]
        rw [h1] at hy0 hxs
        cases hyy : t.ys with
        | nil => rw [hyy] at hy0; simp at hy0
        | cons y ys => rw [hyy] at hy0; simp at hy0; simp [interpSeg, hy0]
      | succ k =>
        have hkk : k < g.length := by omega
        have hlt : g[k] < v := by
          have := List.pairwise_iff_getElem.mp hsorted k (k + 1) hkk hk (by omega)
          rwa [(List.getElem?_eq_some_iff.mp hv).2] at this
        rw [hbetw k _ v v (List.getElem?_eq_getElem hkk) hv hlt.le le_rfl,
          mul_div_assoc, div_self (sub_pos.mpr hlt).ne']
        ring
  · intro k u w v hu hw h0 h1
    rw [hpc, hbetw k u w v hu hw h0 h1]
  · intro v hv
    rw [hpc]
    unfold Table.eval
    have : g.headD 0 ∈ g := by
      cases hgg : g with
      | nil => exact absurd hgg hne
      | cons a l => simp
    rw [hxs, if_pos (hv _ this), hlo]
  · intro v hv
    rw [hpc]
    unfold Table.eval
    have hh : g.headD 0 ∈ g := by
      cases hgg : g with
      | nil => exact absurd hgg hne
      | cons a l => simp
    rw [hxs, if_neg (not_lt.mpr (hv _ hh).le), if_pos (hv _ hlastmem), hhi]

/-- **C56** (partial).  Percentiles are those of the current grid and data whenever each `update_grid()` came
before the first percentile evaluation or was followed by `update_interpolator()`.  The full property, for
arbitrary histories, is false (`C56_stale_refuted`). -/
theorem C56_percentile_partial {ext : Ext K} {e : Elem K} (h : e.Synced ext) : DescribesGrid ext e :=
  .of_table h.reachable h.table

/-- **C56** (partial): after any history at all, `update_interpolator()` brings percentiles up to date. -/
theorem C56_refresh_partial {ext : Ext K} {e e' : Elem K} (hr : e.Reachable ext)
    (h : e.updateInterpolator ext (1 / 10 ^ 6) (1 / 10 ^ 6) = .ok e') :
    DescribesGrid ext e' ∧ e'.grid = e.grid ∧ e'.values = e.values := by
  refine ⟨C56_percentile_partial (.interp hr h), ?_⟩
  obtain ⟨c, rfl⟩ := updateInterpolator_eq h
  exact ⟨rfl, rfl⟩

/-- **C56**: assigning attributes never changes percentiles, up to date or not. -/
theorem C56_setters {ext : Ext K} {e e' : Elem K} {attr : String} {v : PyVal K}
    (h : e.setAttr attr v = .ok e') (x : K) : e'.percentile ext x = e.percentile ext x := by
  obtain ⟨hg, hc, hv, -⟩ := setAttr_grid h
  unfold Elem.percentile Elem.table Elem.freshTable
  rw [hc, newTable_congr hv hg]

/-- **C56**: evaluating percentiles does not change percentiles. -/
theorem C56_stable (ext : Ext K) (e : Elem K) (x : K) :
    (e.fillCache ext).percentile ext x = e.percentile ext x := by
  have hs : (e.fillCache ext).table ext = e.table ext := by
    unfold Elem.fillCache
    cases ht : e.table ext with
    | ok t => rfl
    | error er => simp only [ht]
  unfold Elem.percentile
  rw [hs]

/-- **C56** refuted: after a percentile evaluation, raising the upper bound and calling `update_grid()` leaves
the percentiles of the old grid: 5 is on the new grid `0, ..., 10` but is still reported as lying above all
values. -/
theorem C56_stale_refuted : ∃ e : Elem ℚ,
    mkElem "a" [0, 2] (.tuple [.flt 0, .flt 2]) none true (.str "absolute") 0 (.int 1) = .ok e ∧
    ∃ e1, (e.fillCache exExt).setAttr "ub" (.flt 10) = .ok e1 ∧ ∃ e2, e1.updateGrid = .ok e2 ∧
    e2.grid.vals = [0, 1, 2, 3, 4, 5, 6, 7, 8, 9, 10] ∧
    e2.percentile exExt 5 = .ok (1 - 1 / 10 ^ 6) ∧
    gridPercentile (fun _ => 1) e2.grid.vals 5 ≠ 1 - 1 / 10 ^ 6 := by
  decide +kernel

/-- The refuting history is a reachable one. -/
example {e e1 e2 : Elem ℚ}
    (h : mkElem "a" [0, 2] (.tuple [.flt 0, .flt 2]) none true (.str "absolute") 0 (.int 1) = .ok e)
    (h1 : (e.fillCache exExt).setAttr "ub" (.flt 10) = .ok e1) (h2 : e1.updateGrid = .ok e2) :
    e2.Reachable exExt := .update (.set (.touch (.mk h)) h1) h2

/-- Non-vacuity of `C56_percentile_partial`: bounds changed, grid updated, percentiles evaluated. -/
example : ∃ e : Elem ℚ,
    mkElem "a" [0, 2] (.tuple [.flt 0, .flt 2]) none true (.str "absolute") 0 (.int 1) = .ok e ∧
    ∃ e1, e.setAttr "ub" (.flt 10) = .ok e1 ∧ e1.cache = none ∧ ∃ e2, e1.updateGrid = .ok e2 ∧
    (e2.fillCache exExt).cache ≠ none ∧
    (e2.fillCache exExt).percentile exExt 5 = .ok (gridPercentile (fun _ => 1) e2.grid.vals 5) ∧
    (∃ e3, e2.updateInterpolator exExt (1 / 10 ^ 6) (1 / 10 ^ 6) = .ok e3 ∧ e3.cache ≠ none) := by
  decide +kernel

end Recourse
