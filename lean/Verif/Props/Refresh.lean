import Verif.Props.Grid

/-!
# C121: a refreshed feature is as good as new
-/

set_option linter.unusedSectionVars false

namespace Recourse

variable {K : Type} [Field K] [LinearOrder K] [IsStrictOrderedRing K] [FloorRing K]

variable {ext : Ext K} {e e1 e2 f f1 f2 : Elem K}

/-- Two features with the same data and the same settings (what a user can read of them, but for the grid and the percentiles). -/
structure SameSettings (e f : Elem K) : Prop where
  values : f.values = e.values
  vtype : f.vtype = e.vtype
  lb : f.bounds.lb = e.bounds.lb
  ub : f.bounds.ub = e.bounds.ub
  stepType : f.stepType = e.stepType
  stepSize : f.stepSize = e.stepSize
  stepDir : f.stepDir = e.stepDir
  actionable : f.actionable = e.actionable
  flip : f.flip = e.flip

/-- What a feature offers: its grid, and the values and actions for every point, with and without dropping suboptimal ones. -/
def SameOffersAt (e f : Elem K) : Prop :=
  f.grid = e.grid ∧ ∀ (x : K) (acts drop : Bool), f.feasibleValues x acts drop = e.feasibleValues x acts drop

theorem sameOffersAt_of (hs : SameSettings e f) (hg : f.grid = e.grid) : SameOffersAt e f := by
  refine ⟨hg, fun x acts drop => ?_⟩
  have h1 : f.baseX x = e.baseX x := by unfold Elem.baseX; rw [hs.actionable, hs.stepDir, hg]
  have h2 : f.feasX x drop = e.feasX x drop := by unfold Elem.feasX; rw [hs.flip, h1]
  unfold Elem.feasibleValues Elem.aligned
  rw [h2, hs.flip]

/-- **C121.**  Two features have the same data and settings, whatever happened to them before.  `update_grid()` works for both or
raises the same exception for both; afterwards they have the same grid and offer the same values and actions for every point; and after
`update_interpolator` with the same buffers (which works for both or raises the same exception for both) they give every value the same
percentile. -/
theorem C121_forgets (hs : SameSettings e f) :
    (∀ er, e.updateGrid = .error er → f.updateGrid = .error er) ∧
    ∀ e1, e.updateGrid = .ok e1 → ∃ f1, f.updateGrid = .ok f1 ∧ SameOffersAt e1 f1 ∧ ∀ l r : K,
      (∀ er, e1.updateInterpolator ext l r = .error er → f1.updateInterpolator ext l r = .error er) ∧
      ∀ e2, e1.updateInterpolator ext l r = .ok e2 → ∃ f2, f1.updateInterpolator ext l r = .ok f2 ∧ SameOffersAt e2 f2 ∧
        (∀ v, f2.percentile ext v = e2.percentile ext v) ∧
        ∀ x drop, f2.feasiblePercentiles ext x drop = e2.feasiblePercentiles ext x drop := by
  have hm : mkGrid f.vtype f.bounds.lb f.bounds.ub f.stepType f.stepSize =
      mkGrid e.vtype e.bounds.lb e.bounds.ub e.stepType e.stepSize := by
    rw [hs.vtype, hs.lb, hs.ub, hs.stepType, hs.stepSize]
  unfold Elem.updateGrid
  rw [hm]
  cases mkGrid e.vtype e.bounds.lb e.bounds.ub e.stepType e.stepSize with
  | error er =>
    refine ⟨fun er' h => ?_, fun e1 h => ?_⟩
    · cases h; rfl
    · cases h
  | ok g =>
    refine ⟨fun er' h => ?_, fun e1 h => ?_⟩
    · cases h
    cases h
    have hs1 : SameSettings { e with grid := g } { f with grid := g } :=
      ⟨hs.values, hs.vtype, hs.lb, hs.ub, hs.stepType, hs.stepSize, hs.stepDir, hs.actionable, hs.flip⟩
    have ho := sameOffersAt_of hs1 rfl
    refine ⟨_, rfl, ho, fun l r => ?_⟩
    have ht : Elem.newTable ext ({ f with grid := g } : Elem K) l r = Elem.newTable ext ({ e with grid := g } : Elem K) l r := by
      unfold Elem.newTable
      dsimp only
      rw [hs.values]
    unfold Elem.updateInterpolator
    rw [ht]
    cases Elem.newTable ext ({ e with grid := g } : Elem K) l r with
    | error er =>
      refine ⟨fun er' h => ?_, fun e1 h => ?_⟩
      · cases h; rfl
      · cases h
    | ok t =>
      refine ⟨fun er' h => ?_, fun e1 h => ?_⟩
      · cases h
      cases h
      have hs2 : SameSettings { e with grid := g, cache := some t } { f with grid := g, cache := some t } :=
        ⟨hs.values, hs.vtype, hs.lb, hs.ub, hs.stepType, hs.stepSize, hs.stepDir, hs.actionable, hs.flip⟩
      refine ⟨_, rfl, sameOffersAt_of hs2 rfl, fun v => rfl, fun x drop => ?_⟩
      have hx : ({ f with grid := g, cache := some t } : Elem K).feasX x drop
          = ({ e with grid := g, cache := some t } : Elem K).feasX x drop := by
        have h1 : ({ f with grid := g, cache := some t } : Elem K).baseX x
            = ({ e with grid := g, cache := some t } : Elem K).baseX x := by
          unfold Elem.baseX; dsimp only; rw [hs.actionable, hs.stepDir]
        unfold Elem.feasX
        rw [h1, show ({ f with grid := g, cache := some t } : Elem K).flip =
          ({ e with grid := g, cache := some t } : Elem K).flip from hs.flip]
      unfold Elem.feasiblePercentiles Elem.table
      dsimp only
      rw [hx]

/-- A new feature is up to date: `update_grid()` leaves it as it is; and doing it twice is doing it once. -/
theorem C121_current : (∀ {name : String} {values : List K} {bounds : PyVal K} {vt : Option VType} {act : Bool} {st : PyVal K}
      {sd : K} {ss : PyVal K}, mkElem name values bounds vt act st sd ss = .ok e → e.updateGrid = .ok e) ∧
    (e.updateGrid = .ok e1 → e1.updateGrid = .ok e1) := by
  refine ⟨fun h => ?_, fun h => ?_⟩
  · unfold mkElem at h
    simp only [bind_ok_iff] at h
    obtain ⟨_, -, _, -, b, -, st', -, s, -, g, hg, _, -, h⟩ := h
    cases h
    unfold Elem.updateGrid
    dsimp only
    rw [hg]; rfl
  · unfold Elem.updateGrid at h
    obtain ⟨g, hg, h⟩ := bind_ok_iff.mp h
    cases h
    unfold Elem.updateGrid
    dsimp only
    rw [hg]; rfl

/-- **C121**, as good as new.  Whenever a new feature with the same data and settings can be made, `update_grid()` works for the old
one, and then it has the same grid and offers the same as the new one. -/
theorem C121_as_new {name : String} {values : List K} {bounds : PyVal K} {vt : Option VType} {act : Bool} {st : PyVal K}
    {sd : K} {ss : PyVal K} (h : mkElem name values bounds vt act st sd ss = .ok f) (hs : SameSettings { e with flip := none } f) :
    ∃ e1, e.updateGrid = .ok e1 ∧ e1.grid = f.grid ∧ (∀ x, e1.feasibleValues x false false = f.feasibleValues x false false) ∧
      (e.flip = none → SameOffersAt e1 f) := by
  have hf := (C121_current (e := f) (e1 := f)).1 h
  unfold Elem.updateGrid at hf
  obtain ⟨g, hg, hf⟩ := bind_ok_iff.mp hf
  rw [hs.vtype, hs.lb, hs.ub, hs.stepType, hs.stepSize] at hg
  have hg' : mkGrid e.vtype e.bounds.lb e.bounds.ub e.stepType e.stepSize = .ok g := hg
  have hfg : f.grid = g := by have := Except.ok.inj hf; rw [← this]
  refine ⟨{ e with grid := g }, by unfold Elem.updateGrid; rw [hg']; rfl, hfg.symm, fun x => ?_, fun hfl => ?_⟩
  · have h1 : f.baseX x = ({ e with grid := g } : Elem K).baseX x := by
      unfold Elem.baseX; rw [hs.actionable, hs.stepDir, hfg]
    unfold Elem.feasibleValues Elem.feasX
    rw [h1]
    rfl
  · exact sameOffersAt_of ⟨hs.values, hs.vtype, hs.lb, hs.ub, hs.stepType, hs.stepSize, hs.stepDir, hs.actionable,
      hs.flip.trans hfl.symm⟩ hfg

/-- Without the refresh the settings do not determine the grid: a feature whose step size was assigned, and a new one. -/
theorem C121_example : ∃ e f e1 : Elem ℚ, e.Reachable exExt ∧ f.Reachable exExt ∧ SameSettings e f ∧ e.grid ≠ f.grid ∧
    e.updateGrid = .ok e1 ∧ e1.grid = f.grid := by
  have key : ∃ e0 : Elem ℚ,
      mkElem "a" [0, 1] (.list [.flt 0, .flt 1]) (some .float) true (.str "absolute") 0 (.flt (1 / 2)) = .ok e0 ∧
      ∃ e, e0.setAttr "step_size" (.flt (1 / 4)) = .ok e ∧ ∃ f,
      mkElem "a" [0, 1] (.list [.flt 0, .flt 1]) (some .float) true (.str "absolute") 0 (.flt (1 / 4)) = .ok f ∧
      ∃ e1, e.updateGrid = .ok e1 ∧
      (f.values = e.values ∧ f.vtype = e.vtype ∧ f.bounds.lb = e.bounds.lb ∧ f.bounds.ub = e.bounds.ub) ∧
      (f.stepType = e.stepType ∧ f.stepSize = e.stepSize ∧ f.stepDir = e.stepDir ∧ f.actionable = e.actionable ∧ f.flip = e.flip) ∧
      e.grid ≠ f.grid ∧ e1.grid = f.grid := by decide +kernel
  obtain ⟨e0, h1, e, h2, f, h3, e1, h4, ⟨a1, a2, a3, a4⟩, ⟨a5, a6, a7, a8, a9⟩, h5, h6⟩ := key
  exact ⟨e, f, e1, .set (.mk h1) h2, .mk h3, ⟨a1, a2, a3, a4, a5, a6, a7, a8, a9⟩, h5, h4, h6⟩

end Recourse
