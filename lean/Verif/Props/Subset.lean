import Verif.Props.Limits

/-!
# Subset limits in the program (C35)
-/

set_option linter.unusedSectionVars false

namespace Recourse

variable {K : Type} [Field K] [LinearOrder K] [IsStrictOrderedRing K] [FloorRing K]

variable {ext : Ext K} {o : Oracle K} {b0 b1 b b' : Builder K} {x : List K} {i : Info K}

/-- **C35** (partial).  Suppose `x` is nonnegative at the listed features and every column up to the last listed
one is compatible with the classifier and offers a change at `x` (`LimitsApply`).  Then after every feasible
result the number of listed features that are nonzero respects each subset limit.  Missing from the full
property: situations in which some column before a listed one is not usable, where it is false
(`C35_subset_refuted`, `C35_raises_refuted`). -/
theorem C35_subset_partial (hso : SetOrderOk ext) (ho : o.Sound) (hr : b0.Reachable ext)
    (hx : b0.setX ext x = (b1, .ok ())) (ha : b1.After o b) (hf : b.fit o = .ok (b', i))
    (hi : i.feasible = true) (hla : LimitsApply b0.aset x) :
    ∃ a, i.actions = some a ∧ ∀ k ∈ b0.aset.cons.items,
      k.lb ≤ (numNonzero b0.aset x a k.names : ℕ) ∧ ((numNonzero b0.aset x a k.names : ℕ) : Int) ≤ k.ub := by
  obtain ⟨feats, h1, h2, h3⟩ := Posed.setX hso hr.ok hx
  obtain ⟨Q, -, hq⟩ := h3.after h2 ho ha
  obtain ⟨-, -, rfl⟩ := fit_ok hf
  rcases hq.solved h2 ho with ⟨-, he, -⟩ | ⟨σ, κ, -, -, hk, -, hrep, -⟩
  · rw [he] at hi; cases hi
  exact ⟨_, hrep.actions, (limits_iff hso hr.ok h1 hla hk.lt).mp hk.limits⟩

/-- Adding one subset limit. -/
theorem addC_ok {ns : List String} {lb ub : Int} {A A' : ActionSet ℚ} (hA : A.Reachable exExt)
    (h : (A.addConstraint ns lb ub none).map (·.1) = .ok A') : A'.Reachable exExt := by
  cases hh : A.addConstraint ns lb ub none with
  | error e => rw [hh] at h; cases h
  | ok p =>
    rw [hh] at h
    cases h
    exact .addC hA (i := p.2) hh

/-- The full C35 is false: with four columns, the first of which has coefficient 0, and at most one of `a`
and `b` allowed to be nonzero, every exact solver returns the action that sets both. -/
theorem C35_subset_refuted (be : Backend) : ∃ b0 b1 : Builder ℚ, b0.Reachable exExt ∧
    b0.setX exExt [0, 0, 0, 0] = (b1, .ok ()) ∧
    b0.aset.cons.items.map (fun k => (k.names, k.ub)) = [(["a", "b"], 1)] ∧
    ∀ o : Oracle ℚ, o.Exact → ∃ b' i a, b1.fit o = .ok (b', i) ∧ i.actions = some a ∧
      numNonzero b0.aset [0, 0, 0, 0] a ["a", "b"] = 2 := by
  have key : ∀ be, ∃ b0 : Builder ℚ,
      exBuilderE be .total [[0, 0, 0, 0], [1, 1, 1, 1]] ["z", "a", "b", "c"]
        (fun A => (A.addConstraint ["a", "b"] 0 1 none).map (·.1)) [0, 2, 2, 1] (-4) = .ok b0 ∧
      (b0.setX exExt [0, 0, 0, 0]).2 = .ok () ∧
      b0.aset.cons.items.map (fun k => (k.names, k.ub)) = [(["a", "b"], 1)] ∧
      admitted (b0.buildArgs [0, 0, 0, 0] (b0.setX exExt [0, 0, 0, 0]).1.feats) (fun _ => true) ≠ [] ∧
      ∀ κ ∈ optChoices (b0.buildArgs [0, 0, 0, 0] (b0.setX exExt [0, 0, 0, 0]).1.feats) (fun _ => true),
        numNonzero b0.aset [0, 0, 0, 0]
          (actVec b0.coefs.length (b0.setX exExt [0, 0, 0, 0]).1.feats κ) ["a", "b"] = 2 := by
    intro be; cases be <;> decide +kernel
  obtain ⟨b0, h1, h2, h3, h4, h5⟩ := key be
  have hr : b0.Reachable exExt := exBuilderE_reachable h1 fun A A' hA h => addC_ok hA h
  obtain ⟨b1, hs⟩ : ∃ b1, b0.setX exExt [0, 0, 0, 0] = (b1, .ok ()) := ⟨_, Prod.ext rfl h2⟩
  refine ⟨b0, b1, hr, hs, h3, fun o ho => ?_⟩
  obtain ⟨b1', feats, g1, -, g2, b', i, g3, g4⟩ := exSolve exExt_order hr h2 ho
  rw [hs] at g1; cases g1
  rw [g2] at h4 h5
  rcases g4 with ⟨h, -⟩ | ⟨κ, hκ, -, -, ha, -⟩
  · exact absurd h h4
  · exact ⟨b', i, _, g3, ha, h5 κ hκ⟩

/-- The full C35 is false also in another way: with three columns, the first of which has coefficient 0,
the limit on the other two makes the assignment of a point raise `IndexError`. -/
theorem C35_raises_refuted (be : Backend) (ct : CostType) : ∃ b0 : Builder ℚ,
    exBuilderE be ct [[0, 0, 0], [1, 1, 1]] ["z", "a", "b"]
      (fun A => (A.addConstraint ["a", "b"] 0 1 none).map (·.1)) [0, 1, 1] (-1) = .ok b0 ∧
    (b0.setX exExt [0, 0, 0]).2 = .error .index := by
  cases be <;> cases ct <;> decide +kernel

/-- Non-vacuity of `C35_subset_partial`, and of C25, C26 and C27 with subset limits: at the point `(1, 0)` with at
most one of both features allowed to be nonzero, every exact solver swaps them. -/
theorem C35_example (be : Backend) (ct : CostType) : ∃ b0 b1 : Builder ℚ, b0.Reachable exExt ∧ b0.costType = ct ∧
    b0.setX exExt [1, 0] = (b1, .ok ()) ∧ LimitsApply b0.aset [1, 0] ∧ Regular exExt b0 [1, 0] ∧ Denied b0 [1, 0] ∧
    b0.aset.cons.items.map (fun k => (k.names, k.ub)) = [(["a", "b"], 1)] ∧
    ∀ o : Oracle ℚ, o.Exact → ∃ b' i, b1.fit o = .ok (b', i) ∧ i.actions = some [-1, 1] := by
  have key : ∀ be ct, ∃ b0 : Builder ℚ,
      exBuilderE be ct [[0, 0], [1, 1]] ["a", "b"]
        (fun A => (A.addConstraint ["a", "b"] 0 1 none).map (·.1)) [1, 2] (-2) = .ok b0 ∧ b0.costType = ct ∧
      (b0.setX exExt [1, 0]).2 = .ok () ∧ regularB exExt b0 [1, 0] = true ∧ Denied b0 [1, 0] ∧
      b0.aset.cons.items.map (fun k => (k.names, k.ub)) = [(["a", "b"], 1)] ∧
      admitted (b0.buildArgs [1, 0] (b0.setX exExt [1, 0]).1.feats) (fun _ => true) ≠ [] ∧
      ∀ κ ∈ optChoices (b0.buildArgs [1, 0] (b0.setX exExt [1, 0]).1.feats) (fun _ => true),
        actVec b0.coefs.length (b0.setX exExt [1, 0]).1.feats κ = [-1, 1] := by
    intro be ct; cases be <;> cases ct <;> decide +kernel
  obtain ⟨b0, h1, h0, h2, h3, h3', h3'', h4, h5⟩ := key be ct
  have hr : b0.Reachable exExt := exBuilderE_reachable h1 fun A A' hA h => addC_ok hA h
  obtain ⟨b1, hs⟩ : ∃ b1, b0.setX exExt [1, 0] = (b1, .ok ()) := ⟨_, Prod.ext rfl h2⟩
  have hreg := regular_of_b hr.ok exExt_pos h3
  refine ⟨b0, b1, hr, h0, hs, hreg.limits, hreg, h3', h3'', fun o ho => ?_⟩
  obtain ⟨b1', feats, g1, -, g2, b', i, g3, g4⟩ := exSolve exExt_order hr h2 ho
  rw [hs] at g1; cases g1
  rw [g2] at h4 h5
  rcases g4 with ⟨h, -⟩ | ⟨κ, hκ, -, -, ha, -⟩
  · exact absurd h h4
  · exact ⟨b', i, g3, by rw [ha, h5 κ hκ]⟩

end Recourse
