import Verif.Props.FloatFlip
import Verif.Props.FloatAuditEx
import Verif.Props.FlipEx

/-!
# C109: an example in doubles
-/

set_option linter.unusedSectionVars false

namespace Recourse

/-- The new flipset of the example: two features with coefficients `0.1` and `2`. -/
def exFlipFl (A : ActionSet ℚ) : Flipset ℚ := mkFlipset .cpx A [3, 0] [dbl (1 / 10), 2] (-1) none

/-- Non-vacuity of C109: with everything in doubles, `populate()` succeeds for every exact solver and stores an item; the hypotheses of `C109_found` are met by an action. -/
theorem C109_example : ∃ (A : ActionSet ℚ) (c : Builder ℚ) (a : List ℚ), A.Reachable exExt ∧ SetGrids A ∧ mkBuilder .cpx .total A [dbl (1 / 10), 2] (-1) = .ok c ∧
    ChangesWithin 6 A [3, 0] ∧ GridSizes 200 A ∧ RoomToRound exExt doubles c [3, 0] ∧ LimitsApply c.aset [3, 0] ∧ KnowsZero doubles c.aset [3, 0] ∧ Denied c [3, 0] ∧
    ClearRecourse ((1 + doubles.u) * dotError doubles [dbl (1 / 10), 2] [3, 0] + doubles.u * |dot [dbl (1 / 10), 2] [3, 0] + -1| +
      coefSize [dbl (1 / 10), 2] * (doubles.u * 6)) A [dbl (1 / 10), 2] (-1) [3, 0] a (numActionable A) ∧
    ∀ o : Oracle ℚ, o.Exact → ∃ fs : Flipset ℚ,
      (exFlipFl A).populateFl doubles exExt o (flDotR doubles [dbl (1 / 10), 2] [3, 0])
        (fun a => flDotR doubles [dbl (1 / 10), 2] (vaddFl doubles [3, 0] a)) (flDotR doubles [dbl (1 / 10), 2] [3, 0]) 9 none .distinctSubsets .total
        = some (fs, .ok ()) ∧ fs.items ≠ [] := by
  have key : ∃ A : ActionSet ℚ, exSet [[0, 0], [3, 1], [6, 1]] ["a", "b"] = .ok A ∧ ∃ c : Builder ℚ,
      mkBuilder .cpx .total A [dbl (1 / 10), 2] (-1) = .ok c ∧
      (clearB doubles c [3, 0] [1, 1] 6 = true ∧ Denied c [3, 0] ∧ A.names.length = 2 ∧ (∀ e ∈ A.elems, e.grid.vals.length < 200) ∧
      doubles.fl (-1 + flDotR doubles [dbl (1 / 10), 2] [3, 0]) ≠ -1 ∧ doubles.fl (-1 + flDotR doubles [dbl (1 / 10), 2] [3, 0]) ≠ 0 ∧
      doubles.fl (-1 + flDotR doubles [dbl (1 / 10), 2] [3, 0]) ≠ 1 ∧
      (c.setXFl doubles exExt (flDotR doubles [dbl (1 / 10), 2] [3, 0]) [3, 0]).2 = .ok ()) := by decide +kernel
  obtain ⟨A, hA, c, hc, hcl, hden, hn, hsz, y1, y2, y3, hx⟩ := key
  have hr : A.Reachable exExt := .mk hA
  have hg := SetGrids.of_reachable hr
  have hcr : c.Reachable exExt := Builder.Reachable.mk hr hc
  obtain ⟨c1, c2, c3, c4, c5, c6, cy, c7⟩ := clear_of_b hcr.ok hcl
  obtain ⟨g1, g2, g3, g4, g5, g6, g7⟩ := mkBuilder_offers hr hc
  have hR : ChangesWithin 6 A [3, 0] := by
    refine ⟨by norm_num, fun j e xj v he hx hv => ?_⟩
    obtain ⟨e', he', hse⟩ := g1.getElem? he
    exact c5.2 j e' xj v he' hx ((hse.permitted _ _).mpr hv)
  have hy : A.yDesired = 1 := by rw [← g1.y]; exact cy
  have hclear : ClearRecourse ((1 + doubles.u) * dotError doubles [dbl (1 / 10), 2] [3, 0] + doubles.u * |dot [dbl (1 / 10), 2] [3, 0] + -1| +
      coefSize [dbl (1 / 10), 2] * (doubles.u * 6)) A [dbl (1 / 10), 2] (-1) [3, 0] [1, 1] (numActionable A) := by
    have hla' : RespectsLimits c.aset [3, 0] [1, 1] ↔ RespectsLimits A [3, 0] [1, 1] := by
      unfold RespectsLimits numNonzero; rw [g1.cons, g1.names]
    refine ⟨g1.permittedAction.mp c7.permitted, hla'.mp c7.limits, by rw [← g7]; exact c7.max, ?_⟩
    have := c7.score
    unfold scoreError Builder.score at this
    rw [g2, g3, g1.y] at this
    exact this
  refine ⟨A, c, [1, 1], hr, hg, hc, hR, ⟨by omega, hsz⟩, c1, c2, c3, hden, hclear, fun o ho => ?_⟩
  obtain ⟨fs, h⟩ := C109_populate (o := o) (r := doubles) (be := .cpx) (dX := flDotR doubles [dbl (1 / 10), 2] [3, 0])
    (dN := fun a => flDotR doubles [dbl (1 / 10), 2] (vaddFl doubles [3, 0] a)) (dB := flDotR doubles [dbl (1 / 10), 2] [3, 0]) (ct := .total)
    (t := -1) exExt_order (by norm_num [doubles]) ho.1 hg (by rintro z (rfl | rfl | rfl); exacts [by simpa using y1, by simpa using y2, by simpa using y3]) .refl
    (Or.inr ⟨c, _, hc, Prod.ext rfl hx⟩) .distinctSubsets none (by simp)
  have h9 := h 9 (by rw [hn]; decide)
  refine ⟨fs, h9, fun hnil => ?_⟩
  exact C109_found exExt_order (by norm_num [doubles]) exExt_log ho.2 hg hc (flDotR_ok doubles _ _) (Or.inl hy) h9 hnil hR c1 c2 c3 hden c6 ⟨_, hclear⟩

end Recourse
