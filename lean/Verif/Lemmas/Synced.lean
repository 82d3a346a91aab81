import Verif.Lemmas.Percentile

/-!
# Features whose percentile table belongs to the current grid
-/

set_option linter.unusedSectionVars false

namespace Recourse

variable {K : Type} [Field K] [LinearOrder K] [IsStrictOrderedRing K] [FloorRing K]

theorem Elem.Synced.reachable {ext : Ext K} {e : Elem K} (h : e.Synced ext) : e.Reachable ext := by
  induction h with
  | mk h => exact .mk h
  | set _ h ih => exact .set ih h
  | update _ _ h ih => exact .update ih h
  | touch _ ih => exact .touch ih
  | interp hr h => exact .interp hr h

/-- A table depends only on data and grid. -/
theorem newTable_congr {ext : Ext K} {e e' : Elem K} (hv : e'.values = e.values) (hg : e'.grid = e.grid)
    (l r : K) : e'.newTable ext l r = e.newTable ext l r := by
  unfold Elem.newTable; rw [hv, hg]

theorem Elem.Synced.cache {ext : Ext K} {e : Elem K} (h : e.Synced ext) :
    ∀ t, e.cache = some t → e.freshTable ext = .ok t := by
  induction h with
  | mk h =>
    intro t ht
    obtain ⟨-, -, -, -, -, -, -, -, -, hc⟩ := mkElem_spec h
    rw [hc] at ht; cases ht
  | set _ h ih =>
    intro t ht
    obtain ⟨hg, hc, hv, -⟩ := setAttr_grid h
    unfold Elem.freshTable
    rw [newTable_congr hv hg]
    exact ih t (hc ▸ ht)
  | update _ hc h ih =>
    intro t ht
    unfold Elem.updateGrid at h
    obtain ⟨g, -, h⟩ := bind_ok_iff.mp h
    cases h
    simp only at ht
    rw [hc] at ht; cases ht
  | @touch e _ ih =>
    intro t ht
    have hfe : (e.fillCache ext).freshTable ext = e.freshTable ext := by
      obtain ⟨c, hc⟩ := fillCache_eq ext e
      rw [hc]; exact newTable_congr rfl rfl _ _
    rw [hfe]
    cases hc : e.cache with
    | some t' =>
      unfold Elem.fillCache at ht
      simp only [Elem.table, hc] at ht
      cases ht
      exact ih _ hc
    | none =>
      unfold Elem.fillCache at ht
      simp only [Elem.table, hc] at ht
      cases hf : e.freshTable ext with
      | error er => rw [hf] at ht; simp [hc] at ht
      | ok t' => rw [hf] at ht; cases ht; rfl
  | interp hr h =>
    intro t ht
    unfold Elem.updateInterpolator at h
    obtain ⟨t', hn, h⟩ := bind_ok_iff.mp h
    cases h
    cases ht
    unfold Elem.freshTable
    rw [← hn]; exact newTable_congr rfl rfl _ _

theorem Elem.Synced.table {ext : Ext K} {e : Elem K} (h : e.Synced ext) :
    e.table ext = e.freshTable ext := by
  unfold Elem.table
  cases hc : e.cache with
  | none => rfl
  | some t => exact (h.cache t hc).symm

theorem newTable_spec {ext : Ext K} {e : Elem K} {l r : K} {t : Table K} (h : e.newTable ext l r = .ok t) :
    ∃ pdf, ext.kde e.values = .ok pdf ∧ (0 ≤ l ∧ l < 1) ∧ (0 ≤ r ∧ r < 1) ∧ l + r < 1 ∧
      t = { xs := e.grid.vals, ys := (cumsum (e.grid.vals.map pdf)).map fun c =>
              (l + c) / ((cumsum (e.grid.vals.map pdf)).getLastD 0 + l + r), lo := l, hi := 1 - r } := by
  unfold Elem.newTable at h
  obtain ⟨_, h1, h⟩ := bind_ok_iff.mp h
  obtain ⟨_, h2, h⟩ := bind_ok_iff.mp h
  obtain ⟨_, h3, h⟩ := bind_ok_iff.mp h
  obtain ⟨pdf, hpdf, h⟩ := bind_ok_iff.mp h
  simp only [Except.ok.injEq] at h
  exact ⟨pdf, hpdf, by simpa [pyAssert_ok_iff] using h1, by simpa [pyAssert_ok_iff] using h2,
    by simpa [pyAssert_ok_iff] using h3, h.symm⟩

end Recourse
