import Verif.Props.FloatPercentile
import Verif.Props.Ends
import Verif.Lemmas.Regular
import Verif.Lemmas.Exec

/-!
# C112: examples in doubles
-/

set_option linter.unusedSectionVars false

namespace Recourse

/-- A density estimate that is `p` at 0, `q` at 3 and `s` elsewhere. -/
def exKde (p q s : ℚ) : Ext ℚ :=
  { log := fun x => x - 1, kde := fun _ => .ok fun v => if v = 0 then p else if v = 3 then q else s, setOrder := fun l => l.dedup }

/-- A feature with the grid 0, 3, 6 whose positive direction is desired. -/
def exTriple (vt : VType) : Except Err (Elem ℚ) := do
  let e ← mkElem "a" [0, 6] (.tuple [.flt 0, .flt 6]) (some vt) true (.str "absolute") 0 (.flt 3)
  e.setAttr "flip_direction" (.int 1)

theorem exTriple_reachable {ext : Ext ℚ} {vt : VType} {e : Elem ℚ} (h : exTriple vt = .ok e) : e.Reachable ext := by
  unfold exTriple at h
  obtain ⟨e0, h0, h1⟩ := bind_ok_iff.mp h
  exact .set (.mk h0) h1

theorem exKde_nonneg {p q s : ℚ} (hp : 0 ≤ p) (hq : 0 ≤ q) (hs : 0 ≤ s) (e : Elem ℚ) : DensityNonneg (exKde p q s) e := by
  intro pdf h v _
  cases h
  dsimp only
  split_ifs <;> assumption

theorem exKde_log (p q s : ℚ) : LogIncreasing (exKde p q s) :=
  ⟨by simp [exKde], fun r s _ h => by simpa [exKde] using h⟩

theorem doubles_one : (doubles : Rounding ℚ).fl 1 = 1 := by
  have := dbl_int (K := ℚ) (n := 1) (by norm_num)
  simpa [doubles] using this

theorem doubles_u : (doubles : Rounding ℚ).u < 1 := by norm_num [doubles]

/-- The feature's part of a build at value `x`, in doubles. -/
def exTripleFeat (ext : Ext ℚ) (e : Elem ℚ) (ct : CostType) (x : ℚ) : Except Err (Feat ℚ) := do
  let b ← exBuilderE .cpx ct [[0], [6]] ["a"] .ok [1] (-1)
  let g ← gridEntryFl doubles ext "a" e x true
  mkFeatFl doubles ext b [x] [] g

/-- The same without rounding. -/
def exTripleExact (ext : Ext ℚ) (e : Elem ℚ) (ct : CostType) (x : ℚ) : Except Err (Feat ℚ) := do
  let b ← exBuilderE .cpx ct [[0], [6]] ["a"] .ok [1] (-1)
  let g ← gridEntry ext "a" e x true true
  mkFeat ext b [x] [] g

theorem exTriple_float : ∃ e, exTriple .float = .ok e ∧ (e.grid.vals = [0, 3, 6] ∧ e.grid.isInt = false ∧ e.flip = some 1 ∧ e.cache = none) := by
  decide +kernel

theorem exTriple_int : ∃ e, exTriple .int = .ok e ∧ (e.grid.vals = [0, 3, 6] ∧ e.grid.isInt = true ∧ e.flip = some 1 ∧ e.cache = none) := by
  decide +kernel

/-- Non-vacuity of C112: in doubles, a float feature with grid 0, 3, 6 and unequal densities; the hypotheses hold, the local costs
of its three offered actions are computed, and the table differs from the exact one. -/
theorem C112_example : ∃ (ext : Ext ℚ) (e : Elem ℚ) (t t' : Table ℚ) (f : Feat ℚ), e.Reachable ext ∧ e.GridOk ∧ e.grid.isInt = false ∧
    DensityNonneg ext e ∧ LogIncreasing ext ∧ (0 : ℚ) < dbl pbuf ∧ e.newTable ext (dbl pbuf) (dbl pbuf) = .ok t ∧
    e.freshTableFl doubles ext = .ok t' ∧ t.ys ≠ t'.ys ∧
    (∀ pdf, ext.kde e.values = .ok pdf → 2 * (doubles : Rounding ℚ).u * ((1 + (doubles : Rounding ℚ).u) ^ (e.grid.vals.length + 2) *
      ((e.grid.vals.map pdf).sum + dbl pbuf)) < (1 - (doubles : Rounding ℚ).u) * dbl pbuf) ∧ (∀ y ∈ t'.ys, y < 1) ∧
    exTripleFeat ext e .loc 0 = .ok f ∧ f.actions = [0, 3, 6] ∧ f.costs.Pairwise (· ≤ ·) ∧ ∀ c ∈ f.costs, 0 ≤ c := by
  obtain ⟨e, he, hv, hi, hfl, hca⟩ := exTriple_float
  have hr := exTriple_reachable (ext := exKde 1 2 (1 / 8)) he
  have hg : e.GridOk := hr.inv.2
  have hd := exKde_nonneg (p := 1) (q := 2) (s := 1 / 8) (by norm_num) (by norm_num) (by norm_num) e
  have key : ∃ e : Elem ℚ, exTriple .float = .ok e ∧
      ((∃ t, e.newTable (exKde 1 2 (1 / 8)) (dbl pbuf) (dbl pbuf) = .ok t ∧ ∃ t', e.freshTableFl doubles (exKde 1 2 (1 / 8)) = .ok t' ∧ t.ys ≠ t'.ys) ∧
      (∃ f, exTripleFeat (exKde 1 2 (1 / 8)) e .loc 0 = .ok f ∧ f.actions = [0, 3, 6])) := by decide +kernel
  obtain ⟨e', he', ⟨t, ht, t', ht', hne⟩, f, hf, hacts⟩ := key
  rw [he, Except.ok.injEq] at he'
  subst he'
  have hS : ∀ pdf, (exKde 1 2 (1 / 8)).kde e.values = .ok pdf → 2 * (doubles : Rounding ℚ).u *
      ((1 + (doubles : Rounding ℚ).u) ^ (e.grid.vals.length + 2) * ((e.grid.vals.map pdf).sum + dbl pbuf))
        < (1 - (doubles : Rounding ℚ).u) * dbl pbuf := by
    intro pdf hp
    cases hp
    rw [hv]
    show 2 * (1 / 2 ^ 53 : ℚ) * ((1 + 1 / 2 ^ 53) ^ 5 * _) < (1 - 1 / 2 ^ 53) * dbl pbuf
    decide +kernel
  have hone := C112_below_one doubles_u hd (pbufFl_pos doubles_u) hS ht'
  have hfe := hf
  unfold exTripleFeat at hf
  obtain ⟨b, -, hf⟩ := bind_ok_iff.mp hf
  obtain ⟨g, hge, hf⟩ := bind_ok_iff.mp hf
  have hcl : isClose ((g.acts.map (doubles : Rounding ℚ).fl).getLastD 0) 0 = false := by
    have k2 : ∃ e : Elem ℚ, exTriple .float = .ok e ∧ ∃ g, gridEntryFl doubles (exKde 1 2 (1 / 8)) "a" e 0 true = .ok g ∧
        isClose ((g.acts.map (doubles : Rounding ℚ).fl).getLastD 0) 0 = false := by decide +kernel
    obtain ⟨e', he', g', hg', h⟩ := k2
    rw [he, Except.ok.injEq] at he'
    subst he'
    rw [hge, Except.ok.injEq] at hg'
    rw [hg']
    exact h
  obtain ⟨c1, c2⟩ := C112_offered_partial (exKde_log _ _ _) doubles_u doubles_one hg hi hd ht' (b := b) (fun _ => hone) (xj := 0)
    (by rw [hv]; simp) hge hfl (Or.inr ⟨by norm_num, hcl⟩) hf
  exact ⟨exKde 1 2 (1 / 8), e, t, t', f, hr, hg, hi, hd, exKde_log _ _ _, pbufFl_pos doubles_u, ht, ht', hne, hS, hone, hfe, hacts, c1, c2⟩

/-- **C112** fails as wished (scores below 1): in doubles the score of the largest grid value can be exactly 1, although the exact score is
below 1; the local cost of moving there is the logarithm of a division by 0. -/
theorem C112_one_refuted : ∃ (ext : Ext ℚ) (e : Elem ℚ) (t t' : Table ℚ), e.Reachable ext ∧ DensityNonneg ext e ∧
    e.freshTableFl doubles ext = .ok t ∧ t.ys.getLastD 0 = 1 ∧ e.freshTable ext = .ok t' ∧ t'.ys.getLastD 0 < 1 := by
  have key : ∃ e : Elem ℚ, exTriple .float = .ok e ∧ ∃ t, e.freshTableFl doubles (exKde (2 ^ 44) (2 ^ 44) (2 ^ 44)) = .ok t ∧
      (t.ys.getLastD 0 = 1 ∧ ∃ t', e.freshTable (exKde (2 ^ 44) (2 ^ 44) (2 ^ 44)) = .ok t' ∧ t'.ys.getLastD 0 < 1) := by decide +kernel
  obtain ⟨e, he, t, ht, h1, t', ht', h2⟩ := key
  exact ⟨_, e, t, t', exTriple_reachable he, exKde_nonneg (by positivity) (by positivity) (by positivity) e, ht, h1, ht', h2⟩

/-- **C112** fails as wished (nothing is lost): in doubles a grid value where few training values lie gets the same score as its neighbour, so
the program takes the move there for a numerical issue and does not offer it; without rounding it is offered. -/
theorem C112_gap_refuted : ∃ (ext : Ext ℚ) (e : Elem ℚ) (f f' : Feat ℚ), e.Reachable ext ∧ (∀ pdf, ext.kde e.values = .ok pdf → ∀ v, 0 < pdf v) ∧
    exTripleFeat ext e .total 0 = .ok f ∧ f.actions = [0, 6] ∧ exTripleExact ext e .total 0 = .ok f' ∧ f'.actions = [0, 3, 6] := by
  have key : ∃ e : Elem ℚ, exTriple .float = .ok e ∧ ∃ f, exTripleFeat (exKde 1 (1 / 2 ^ 60) 1) e .total 0 = .ok f ∧
      (f.actions = [0, 6] ∧ ∃ f', exTripleExact (exKde 1 (1 / 2 ^ 60) 1) e .total 0 = .ok f' ∧ f'.actions = [0, 3, 6]) := by decide +kernel
  obtain ⟨e, he, f, hf, h1, f', hf', h2⟩ := key
  refine ⟨_, e, f, f', exTriple_reachable he, ?_, hf, h1, hf', h2⟩
  intro pdf hp v
  cases hp
  dsimp only
  split_ifs <;> positivity

/-- **C112** fails between grid values: in doubles the percentile of a value just below a grid value can be above the percentile of that grid value. -/
theorem C112_between_refuted : ∃ (ext : Ext ℚ) (e : Elem ℚ) (t : Table ℚ) (x : ℚ), e.Reachable ext ∧ DensityNonneg ext e ∧
    e.freshTableFl doubles ext = .ok t ∧ e.grid.isInt = false ∧ dbl x = x ∧ (0 ∈ e.grid.vals ∧ 3 ∈ e.grid.vals ∧ 0 < x ∧ x < 3) ∧
    t.evalFl doubles e.grid.isInt 3 < t.evalFl doubles e.grid.isInt x := by
  have key : ∃ e : Elem ℚ, exTriple .float = .ok e ∧ ∃ t, e.freshTableFl doubles (exKde (3 / 8) (5 / 8) (1 / 8)) = .ok t ∧
      (e.grid.isInt = false ∧ (dbl (3 - 1 / 2 ^ 51 : ℚ) = 3 - 1 / 2 ^ 51 ∧ (0 ∈ e.grid.vals ∧ 3 ∈ e.grid.vals ∧
        t.evalFl doubles e.grid.isInt 3 < t.evalFl doubles e.grid.isInt (3 - 1 / 2 ^ 51)))) := by decide +kernel
  obtain ⟨e, he, t, ht, h1, h2, h3, h4, h5⟩ := key
  exact ⟨_, e, t, _, exTriple_reachable he, exKde_nonneg (by norm_num) (by norm_num) (by norm_num) e, ht, h1, h2,
    ⟨h3, h4, by norm_num, by norm_num⟩, h5⟩

/-- **C112** fails for integer features: in doubles the percentile of a grid value can be below that of a smaller grid value. -/
theorem C112_integer_refuted : ∃ (ext : Ext ℚ) (e : Elem ℚ) (t : Table ℚ), e.Reachable ext ∧ DensityNonneg ext e ∧
    e.freshTableFl doubles ext = .ok t ∧ e.grid.isInt = true ∧ (3 ∈ e.grid.vals ∧ 6 ∈ e.grid.vals) ∧
    t.evalFl doubles e.grid.isInt 6 < t.evalFl doubles e.grid.isInt 3 := by
  have key : ∃ e : Elem ℚ, exTriple .int = .ok e ∧ ∃ t, e.freshTableFl doubles (exKde (1 / 8) 1 (1 / 2 ^ 60)) = .ok t ∧
      (e.grid.isInt = true ∧ (3 ∈ e.grid.vals ∧ (6 ∈ e.grid.vals ∧
        t.evalFl doubles e.grid.isInt 6 < t.evalFl doubles e.grid.isInt 3))) := by decide +kernel
  obtain ⟨e, he, t, ht, h1, h2, h3, h4⟩ := key
  exact ⟨_, e, t, exTriple_reachable he, exKde_nonneg (by norm_num) (by norm_num) (by norm_num) e, ht, h1, ⟨h2, h3⟩, h4⟩

end Recourse
