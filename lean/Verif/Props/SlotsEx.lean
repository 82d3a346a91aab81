import Verif.Props.Slots
import Verif.Props.Ends
import Verif.Props.EnumAny

/-!
# Examples for C106 and C88 with positions that are not the columns
-/

set_option linter.unusedSectionVars false

namespace Recourse

/-- Sets in Python's order, in the examples. -/
theorem exExt_once : SetOrderOnce exExt := fun l => List.nodup_dedup l

/-- Non-vacuity of `C106_positions`, `C106_answers` and `C88_exact` where the positions are not the columns: with four columns, the first of
which has coefficient 0, a limit on `a` and `b` (columns 1 and 2) limits columns 2 and 3, and the answer of every exact solver sets
both `a` and `b`: one change of the columns that are limited, two of those that are listed. -/
theorem C106_slots_example (be : Backend) : ∃ b0 b1 : Builder ℚ, b0.Reachable exExt ∧ Placed exExt b0 [0, 0, 0, 0] ∧
    b0.setX exExt [0, 0, 0, 0] = (b1, .ok ()) ∧ AcceptedAt exExt b0 [0, 0, 0, 0] ∧
    b0.aset.cons.items.map (fun k => (k.names, k.indices, k.ub)) = [(["a", "b"], [1, 2], 1)] ∧
    programColumns exExt b0.aset [0, 0, 0, 0] = [1, 2, 3] ∧
    ∀ o : Oracle ℚ, o.Exact → ∃ b' i, b1.fit o = .ok (b', i) ∧ i.feasible = true ∧ i.actions = some [0, 1, 1, 0] ∧
      ProgramRecourse exExt b0 [0, 0, 0, 0] [0, 1, 1, 0] := by
  have key : ∀ be, ∃ b0 : Builder ℚ,
      exBuilderE be .total [[0, 0, 0, 0], [1, 1, 1, 1]] ["z", "a", "b", "c"]
        (fun A => (A.addConstraint ["a", "b"] 0 1 none).map (·.1)) [0, 2, 2, 1] (-4) = .ok b0 ∧
      (b0.setX exExt [0, 0, 0, 0]).2 = .ok () ∧ placedB exExt b0 [0, 0, 0, 0] = true ∧
      b0.aset.cons.items.map (fun k => (k.names, k.indices, k.ub)) = [(["a", "b"], [1, 2], 1)] ∧
      (b0.setX exExt [0, 0, 0, 0]).1.feats.map (·.idx) = [1, 2, 3] ∧
      admitted (b0.buildArgs [0, 0, 0, 0] (b0.setX exExt [0, 0, 0, 0]).1.feats) (fun _ => true) ≠ [] ∧
      ∀ κ ∈ optChoices (b0.buildArgs [0, 0, 0, 0] (b0.setX exExt [0, 0, 0, 0]).1.feats) (fun _ => true),
        actVec b0.coefs.length (b0.setX exExt [0, 0, 0, 0]).1.feats κ = [0, 1, 1, 0] := by
    intro be; cases be <;> decide +kernel
  obtain ⟨b0, h1, h2, hp, h3, hi, h4, h5⟩ := key be
  have hr : b0.Reachable exExt := exBuilderE_reachable h1 fun A A' hA h => addC_ok hA h
  have hreg := placed_of_b hr.ok exExt_pos hp
  obtain ⟨b1, hs⟩ : ∃ b1, b0.setX exExt [0, 0, 0, 0] = (b1, .ok ()) := ⟨_, Prod.ext rfl h2⟩
  refine ⟨b0, b1, hr, hreg, hs, (C88_exact exExt_order exExt_once exExt_increasing hr hreg).mp h2, h3, ?_, fun o ho => ?_⟩
  · obtain ⟨feats, m, -, hfs, -, rfl⟩ := setX_ok hs
    rw [hs] at hi
    rw [programColumns_eq exExt_order exExt_once hr.ok hreg.fits hfs]
    exact hi
  · obtain ⟨b1', feats, g1, -, g2, b', i, g3, g4⟩ := exSolve exExt_order hr h2 ho
    rw [hs] at g1; cases g1
    rw [g2] at h4 h5
    rcases g4 with ⟨h, -⟩ | ⟨κ, hκ, -, hfe, ha, -⟩
    · exact absurd h h4
    · rw [h5 κ hκ] at ha
      refine ⟨b', i, g3, hfe, ha, ?_⟩
      obtain ⟨a, ha', -, hpr⟩ := C106_positions exExt_order exExt_once ho.1 hr hreg.fits hs .refl g3 hfe
      rw [ha] at ha'
      cases ha'
      exact hpr

/-- Non-vacuity of `C106_index`: with three columns, the first of which has coefficient 0, a limit on the other two asks for a third
column of the program, which there is not. -/
theorem C106_index_example (be : Backend) (ct : CostType) : ∃ b0 : Builder ℚ, b0.Reachable exExt ∧
    Placed exExt b0 [0, 0, 0] ∧ FeaturesInOrder exExt b0 [0, 0, 0] ∧ ¬ PositionsExist exExt b0.aset [0, 0, 0] ∧
    (b0.setX exExt [0, 0, 0]).2 = .error .index := by
  have key : ∀ be ct, ∃ b0 : Builder ℚ, exBuilderE be ct [[0, 0, 0], [1, 1, 1]] ["z", "a", "b"]
      (fun A => (A.addConstraint ["a", "b"] 0 1 none).map (·.1)) [0, 1, 1] (-1) = .ok b0 ∧
      (∃ feats : List (Feat ℚ), b0.buildInfo exExt [0, 0, 0] = .ok feats ∧ feats.length = 2) ∧
      placedB exExt b0 [0, 0, 0] = true ∧ (∀ e ∈ b0.aset.elems, e.flip ≠ none) ∧ b0.coefs.length = 3 ∧
      (b0.setX exExt [0, 0, 0]).2 = .error .index := by
    intro be ct; cases be <;> cases ct <;> decide +kernel
  obtain ⟨b0, h1, ⟨feats, h2, h6⟩, h3, h4, h5, h7⟩ := key be ct
  have hr : b0.Reachable exExt := exBuilderE_reachable h1 fun A A' hA h => addC_ok hA h
  have hreg := placed_of_b hr.ok exExt_pos h3
  have hf : FeaturesInOrder exExt b0 [0, 0, 0] := features_of_build exExt_order exExt_once hr.ok hreg h4 (by rw [h5]; rfl) h2
    (fun _ h0 => by rw [h0] at h6; cases h6)
  refine ⟨b0, hr, hreg, hf, fun hp => ?_, h7⟩
  rw [(C106_index exExt_order exExt_once exExt_increasing hr hreg hf).1 hp] at h7
  cases h7

/-- Non-vacuity of `C107_apart`, `C107_next` and `C107_stop`: the two answers `(-1, -1)` and `(-2, -1)` of `C43_cpx_refuted` change the same
features but do not leave the same columns at rest. -/
theorem C107_example : ∃ b0 b1 : Builder ℚ, b0.Reachable exExt ∧ b0.backend = .cpx ∧ b0.costType = .total ∧
    Placed exExt b0 [2, 1] ∧ b0.setX exExt [2, 1] = (b1, .ok ()) ∧
    ¬ SameAtRest b0.aset [2, 1] [-1, -1] [-2, -1] ∧ SameFeatures [(-1 : ℚ), -1] [-2, -1] ∧
    ∀ o : Oracle ℚ, o.Exact → ∃ b' l, b1.populate o .distinctSubsets 5 none = .ok (some (b', l)) ∧
      (∃ i ∈ l, i.actions = some [-1, -1]) ∧ ∃ i ∈ l, i.actions = some [-2, -1] := by
  have key : ∃ b0 : Builder ℚ,
      exBuilderE .cpx .total [[0, 0], [1, 1], [2, 1]] ["a", "b"] (fun A => (A.addConstraint ["a", "b"] 0 2 none).map (·.1))
        [-1, -1] 1 = .ok b0 ∧ b0.backend = .cpx ∧ b0.costType = .total ∧ numActionable b0.aset = 2 ∧
      placedB exExt b0 [2, 1] = true ∧ b0.aset.names = ["a", "b"] ∧ "a" ∈ b0.aset.cons.flatNames ∧
      (b0.setX exExt [2, 1]).2 = .ok () ∧
      ∀ a ∈ [[-1, -1], [-2, -1]],
      ∃ κ ∈ admitted (b0.buildArgs [2, 1] (b0.setX exExt [2, 1]).1.feats) (fun _ => true),
        (actVec b0.coefs.length (b0.setX exExt [2, 1]).1.feats κ) = a ∧
        ∀ κ' ∈ admitted (b0.buildArgs [2, 1] (b0.setX exExt [2, 1]).1.feats) (fun _ => true),
          (cutByB .distinctSubsets b0.backend (b0.setX exExt [2, 1]).1.feats κ' κ = false →
            actVec b0.coefs.length (b0.setX exExt [2, 1]).1.feats κ' = a) := by
    decide +kernel
  obtain ⟨b0, h1, hbe, hct, hna, hpl, hnm, hli, h5, h6⟩ := key
  have hr : b0.Reachable exExt := exBuilderE_reachable h1 fun A A' hA h => addC_ok hA h
  obtain ⟨b1, hs⟩ : ∃ b1, b0.setX exExt [2, 1] = (b1, .ok ()) := ⟨_, Prod.ext rfl h5⟩
  refine ⟨b0, b1, hr, hbe, hct, placed_of_b hr.ok exExt_pos hpl, hs, ?_, ?_, fun o ho => ?_⟩
  · intro hsame
    have h0 := hsame 0 (by rw [hnm]; decide)
    have hrest : AtRest b0.aset [2, 1] [-2, -1] 0 :=
      ⟨"a", 2, -2, by rw [hnm]; rfl, rfl, rfl, fun _ => by norm_num, fun hh => absurd ⟨listed_iff.mp hli, by norm_num⟩ hh⟩
    obtain ⟨n, xj, aj, e1, e2, e3, e4, -⟩ := h0.mpr hrest
    rw [hnm] at e1
    cases e1; cases e2; cases e3
    have := e4 ⟨listed_iff.mp hli, by norm_num⟩
    norm_num at this
  · intro j
    match j with
    | 0 => simp
    | 1 => simp
    | j + 2 => simp
  obtain ⟨b1', feats, g1, g0, g2, b', t, g3, ht, -, -, -, hend⟩ :=
    exPopulate exExt_order hr h5 ho .distinctSubsets none (by simp)
  rw [hs] at g1; cases g1
  rcases hend with ⟨k, hk, -⟩ | hend
  · cases hk
  rw [g2] at h6
  have main : ∀ a ∈ [[-1, -1], [-2, -1]], ∃ i ∈ t.map (·.2), i.actions = some a := by
    intro a ha
    obtain ⟨κ, hκ, rfl, huniq⟩ := h6 a ha
    obtain ⟨q, hq, κ', hκ', -, hact, hcut⟩ := hend κ hκ
    exact ⟨q.2, List.mem_map_of_mem hq, by rw [hact, huniq κ' hκ' hcut]⟩
  exact ⟨b', _, g3 5 (by rw [hna]; decide), main _ (by simp), main _ (by simp)⟩

end Recourse
