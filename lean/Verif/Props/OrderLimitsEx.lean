import Verif.Props.OrderLimits
import Verif.Props.SlotsEx
import Mathlib.Tactic.IntervalCases

/-!
# C77 and C78 with subset limits: examples
-/

set_option linter.unusedSectionVars false

namespace Recourse

/-- The limit of the examples: at most one of `a` and `b` is nonzero. -/
def exOne (A : ActionSet ℚ) : Except Err (ActionSet ℚ) := (A.addConstraint ["a", "b"] 0 1 none).map (·.1)

theorem exOne_ok {ext : Ext ℚ} {A A' : ActionSet ℚ} (hA : A.Reachable ext) (h : exOne A = .ok A') :
    A'.Reachable ext ∧ A'.elems = A.elems := by
  unfold exOne at h
  cases hc : A.addConstraint ["a", "b"] 0 1 none with
  | error e => rw [hc] at h; cases h
  | ok r =>
    obtain ⟨B, i⟩ := r
    rw [hc] at h
    cases h
    refine ⟨.addC hA hc, ?_⟩
    unfold ActionSet.addConstraint at hc
    simp only [bind_ok_iff] at hc
    obtain ⟨_, _, hc⟩ := hc
    cases hc
    rfl

set_option synthInstance.maxHeartbeats 400000 in
set_option synthInstance.maxSize 1000 in
/-- Non-vacuity of C78 with subset limits (and of C77, the order changes too): the columns `a, b, z` with coefficients `1, 2, 0`, and the columns
`b, a`, with at most one of `a` and `b` nonzero; there is recourse in both cases. -/
theorem C78_subsets_example (be : Backend) (ct : CostType) :
    ∃ (A A' : ActionSet ℚ) (fr : List (Col ℚ)) (b d b1 d1 : Builder ℚ),
    A.Reachable exExt ∧ A'.Reachable exExt ∧ Leaves A A' [1, 2, 0] [2, 1] [0, 0, 1] [0, 0] (-1) (-1) fr ∧ fr ≠ [] ∧
    A.cons.items ≠ [] ∧
    mkBuilder be ct A [1, 2, 0] (-1) = .ok b ∧ mkBuilder be ct A' [2, 1] (-1) = .ok d ∧
    LimitsApply b.aset [0, 0, 1] ∧ LimitsApply d.aset [0, 0] ∧ Placed exExt b [0, 0, 1] ∧
    b.setX exExt [0, 0, 1] = (b1, .ok ()) ∧ d.setX exExt [0, 0] = (d1, .ok ()) ∧
    ∀ o : Oracle ℚ, o.Exact → ∃ b' i d' i', b1.fit o = .ok (b', i) ∧ d1.fit o = .ok (d', i') ∧ i.feasible = true ∧
      i'.feasible = true := by
  have key : ∀ be ct, ∃ A0 : ActionSet ℚ,
      mkActionSet [[0, 0, 0], [1, 1, 1]] ["a", "b", "z"] 1 [] defaultBounds (.str "relative") = .ok A0 ∧
      ∃ A : ActionSet ℚ, exOne A0 = .ok A ∧
      ∃ A0' : ActionSet ℚ, mkActionSet [[0, 0], [1, 1]] ["b", "a"] 1 [] defaultBounds (.str "relative") = .ok A0' ∧
      ∃ A' : ActionSet ℚ, exOne A0' = .ok A' ∧
      (A'.yDesired = A.yDesired ∧
       A.cons.items.map (fun k => (k.names, k.lb, k.ub)) = [(["a", "b"], 0, 1)] ∧
       A'.cons.items.map (fun k => (k.names, k.lb, k.ub)) = [(["b", "a"], 0, 1)] ∧
       A'.alignmentKnown = A.alignmentKnown ∧ A.alignmentKnown = false) ∧
      ∃ b : Builder ℚ, mkBuilder be ct A [1, 2, 0] (-1) = .ok b ∧
      ∃ d : Builder ℚ, mkBuilder be ct A' [2, 1] (-1) = .ok d ∧
        (situatedB exExt b [0, 0, 1] = true ∧ situatedB exExt d [0, 0] = true ∧
        (b.setX exExt [0, 0, 1]).2 = .ok () ∧
        admitted (b.buildArgs [0, 0, 1] (b.setX exExt [0, 0, 1]).1.feats) (fun _ => true) ≠ []) := by
    intro be ct; cases be <;> cases ct <;> decide +kernel
  obtain ⟨A0, h1, A, h2, A0', h3, A', h4, ⟨k1, k2, k3, k4, k5⟩, b, h5, d, h6, h7, h8, h9, h10⟩ := key be ct
  clear key
  have hA0 : A0.Reachable exExt := .mk h1
  have hA0' : A0'.Reachable exExt := .mk h3
  obtain ⟨hA, eA⟩ := exOne_ok hA0 h2
  obtain ⟨hA', eA'⟩ := exOne_ok hA0' h4
  have hcol : ∀ (i j : ℕ) (n : String), i < 3 → j < 2 → ["a", "b", "z"][i]? = some n → ["b", "a"][j]? = some n →
      A.elems[i]? = A'.elems[j]? := by
    intro i j n hi hj hn hn'
    obtain ⟨v, g1, g2⟩ := (mapM_getElem (mkActionSet_spec h1).2.2.2.1 (j := i)).1 (n, i) (by
      rw [List.getElem?_zipIdx, hn]; simp)
    obtain ⟨v', g1', g2'⟩ := (mapM_getElem (mkActionSet_spec h3).2.2.2.1 (j := j)).1 (n, j) (by
      rw [List.getElem?_zipIdx, hn']; simp)
    rw [eA, eA', g1, g1']
    have e : mkColumn [[0, 0], [1, (1 : ℚ)]] [] defaultBounds (.str "relative") j n =
        mkColumn [[0, 0, 0], [1, 1, (1 : ℚ)]] [] defaultBounds (.str "relative") i n := by
      have hc : column [[0, 0], [1, (1 : ℚ)]] j = column [[0, 0, 0], [1, 1, (1 : ℚ)]] i := by
        interval_cases i <;> interval_cases j <;> rfl
      unfold mkColumn; rw [hc]
    dsimp only at g2 g2'
    rw [e, g2] at g2'
    exact congrArg some (Except.ok.inj g2')
  have hl : A.elems.length = 3 := by rw [eA, hA0.wf.length, (mkActionSet_spec h1).2.2.2.2.2.1]; rfl
  have hl' : A'.elems.length = 2 := by rw [eA', hA0'.wf.length, (mkActionSet_spec h3).2.2.2.2.2.1]; rfl
  obtain ⟨ea, eb, ez, hE⟩ := List.length_eq_three.mp hl
  obtain ⟨eb', ea', hE'⟩ := List.length_eq_two.mp hl'
  have q1 := hcol 0 1 "a" (by decide) (by decide) rfl rfl
  have q2 := hcol 1 0 "b" (by decide) (by decide) rfl rfl
  rw [hE, hE'] at q1 q2
  obtain rfl : ea = ea' := Option.some.inj q1
  obtain rfl : eb = eb' := Option.some.inj q2
  have hlim : ∀ {A : ActionSet ℚ} {l : List String}, A.cons.items.map (fun k => (k.names, k.lb, k.ub)) = [(l, 0, 1)] →
      ∃ k, A.cons.items = [k] ∧ k.names = l ∧ k.lb = 0 ∧ k.ub = 1 := by
    intro A l hA
    have hlen : A.cons.items.length = 1 := by
      have := congrArg List.length hA
      rwa [List.length_map] at this
    obtain ⟨k, hk⟩ := List.length_eq_one_iff.mp hlen
    rw [hk] at hA
    simp only [List.map_cons, List.map_nil, List.cons.injEq, and_true, Prod.mk.injEq] at hA
    exact ⟨k, hk, hA⟩
  obtain ⟨k, i1, i2, i3, i4⟩ := hlim k2
  obtain ⟨k', j1, j2, j3, j4⟩ := hlim k3
  have hsame : SameLimits A A' := by
    unfold SameLimits
    rw [i1, j1]
    refine ⟨fun m hm => ⟨k', List.mem_singleton_self _, ?_⟩, fun m hm => ⟨k, List.mem_singleton_self _, ?_⟩⟩
    · rw [List.mem_singleton.mp hm, i2, i3, i4, j2, j3, j4]; exact ⟨.swap _ _ _, rfl, rfl⟩
    · rw [List.mem_singleton.mp hm, i2, i3, i4, j2, j3, j4]; exact ⟨.swap _ _ _, rfl, rfl⟩
  have hred : Leaves A A' [1, 2, 0] [2, 1] [0, 0, 1] [0, 0] (-1) (-1) [(ez, 0, 1)] := by
    refine ⟨k1, hsame, ?_, ?_, k4, by norm_num⟩
    · rw [hE, hE']
      exact List.reverse_perm [(ez, (0 : ℚ), (1 : ℚ)), (eb, 2, 0), (ea, 1, 0)]
    · intro a ha
      rw [List.mem_singleton] at ha
      subst ha
      exact .inr ⟨rfl, k5⟩
  have rb : b.Reachable exExt := .mk hA h5
  have rd : d.Reachable exExt := .mk hA' h6
  have s1 := situated_of_b rb.ok exExt_pos h7
  have s2 := situated_of_b rd.ok exExt_pos h8
  obtain ⟨b1, hx⟩ : ∃ b1, b.setX exExt [0, 0, 1] = (b1, .ok ()) := ⟨_, Prod.ext rfl h9⟩
  have hall := C78_subsets_partial exExt_order hA hA' hred h5 h6 s1.limits s2.limits rfl rfl
  obtain ⟨d1, hx'⟩ : ∃ d1, d.setX exExt [0, 0] = (d1, .ok ()) :=
    ⟨_, Prod.ext rfl ((hall.1 exExt_once exExt_increasing s1.placed).mpr h9)⟩
  refine ⟨A, A', _, b, d, b1, d1, hA, hA', hred, by simp, by rw [i1]; simp, h5, h6, s1.limits, s2.limits, s1.placed,
    hx, hx', fun o ho => ?_⟩
  obtain ⟨b', i, hf, hi⟩ : ∃ b' i, b1.fit o = .ok (b', i) ∧ i.feasible = true := by
    obtain ⟨b1', feats, g1, -, g2, b', i, g3, g4⟩ := exSolve exExt_order rb h9 ho
    rw [g1] at hx
    obtain ⟨rfl, -⟩ := Prod.mk.inj hx
    refine ⟨b', i, g3, ?_⟩
    rcases g4 with ⟨h, -⟩ | ⟨κ, -, -, hf, -⟩
    · rw [g2] at h10; exact absurd h h10
    · exact hf
  obtain ⟨feats, g1, g2, g3⟩ := Posed.setX exExt_order rd.ok hx'
  obtain ⟨m, hm, -⟩ := g3.mip
  have hf' : d1.fit o = .ok (d1.solve o, (d1.solve o).solutionInfo) := by unfold Builder.fit; rw [hm]
  refine ⟨b', i, _, _, hf, hf', hi, ?_⟩
  rw [(hall.2 ho ho hx hx' .refl .refl hf hf').1, hi]

set_option synthInstance.maxHeartbeats 400000 in
set_option synthInstance.maxSize 1000 in
/-- Non-vacuity of C77 with subset limits: the columns `a, b` with coefficients `1, 2`, and the columns `b, a`, with at most one of
`a` and `b` nonzero; there is recourse in both cases. -/
theorem C77_subsets_example (be : Backend) (ct : CostType) :
    ∃ (A A' : ActionSet ℚ) (b d b1 d1 : Builder ℚ),
    A.Reachable exExt ∧ A'.Reachable exExt ∧ A'.yDesired = A.yDesired ∧ SameLimits A A' ∧
    (A'.elems.zip ([(2 : ℚ), 1].zip [(0 : ℚ), 0])).Perm (A.elems.zip ([1, 2].zip [0, 0])) ∧ A'.elems ≠ A.elems ∧
    A.cons.items ≠ [] ∧
    mkBuilder be ct A [1, 2] (-1) = .ok b ∧ mkBuilder be ct A' [2, 1] (-1) = .ok d ∧
    LimitsApply b.aset [0, 0] ∧ LimitsApply d.aset [0, 0] ∧ Placed exExt b [0, 0] ∧
    b.setX exExt [0, 0] = (b1, .ok ()) ∧ d.setX exExt [0, 0] = (d1, .ok ()) ∧
    ∀ o : Oracle ℚ, o.Exact → ∃ b' i d' i', b1.fit o = .ok (b', i) ∧ d1.fit o = .ok (d', i') ∧ i.feasible = true ∧
      i'.feasible = true := by
  have key : ∀ be ct, ∃ A0 : ActionSet ℚ,
      mkActionSet [[0, 0], [1, 1]] ["a", "b"] 1 [] defaultBounds (.str "relative") = .ok A0 ∧
      ∃ A : ActionSet ℚ, exOne A0 = .ok A ∧
      ∃ A0' : ActionSet ℚ, mkActionSet [[0, 0], [1, 1]] ["b", "a"] 1 [] defaultBounds (.str "relative") = .ok A0' ∧
      ∃ A' : ActionSet ℚ, exOne A0' = .ok A' ∧
      (A'.yDesired = A.yDesired ∧
       A.cons.items.map (fun k => (k.names, k.lb, k.ub)) = [(["a", "b"], 0, 1)] ∧
       A'.cons.items.map (fun k => (k.names, k.lb, k.ub)) = [(["b", "a"], 0, 1)] ∧
       A'.names = ["b", "a"] ∧ A.names = ["a", "b"]) ∧
      ∃ b : Builder ℚ, mkBuilder be ct A [1, 2] (-1) = .ok b ∧
      ∃ d : Builder ℚ, mkBuilder be ct A' [2, 1] (-1) = .ok d ∧
        (situatedB exExt b [0, 0] = true ∧ situatedB exExt d [0, 0] = true ∧
        (b.setX exExt [0, 0]).2 = .ok () ∧
        admitted (b.buildArgs [0, 0] (b.setX exExt [0, 0]).1.feats) (fun _ => true) ≠ []) := by
    intro be ct; cases be <;> cases ct <;> decide +kernel
  obtain ⟨A0, h1, A, h2, A0', h3, A', h4, ⟨k1, k2, k3, k4', k5'⟩, b, h5, d, h6, h7, h8, h9, h10⟩ := key be ct
  clear key
  have hA0 : A0.Reachable exExt := .mk h1
  have hA0' : A0'.Reachable exExt := .mk h3
  obtain ⟨hA, eA⟩ := exOne_ok hA0 h2
  obtain ⟨hA', eA'⟩ := exOne_ok hA0' h4
  have hcol : ∀ (i j : ℕ) (n : String), i < 2 → j < 2 → ["a", "b"][i]? = some n → ["b", "a"][j]? = some n →
      A.elems[i]? = A'.elems[j]? := by
    intro i j n hi hj hn hn'
    obtain ⟨v, g1, g2⟩ := (mapM_getElem (mkActionSet_spec h1).2.2.2.1 (j := i)).1 (n, i) (by
      rw [List.getElem?_zipIdx, hn]; simp)
    obtain ⟨v', g1', g2'⟩ := (mapM_getElem (mkActionSet_spec h3).2.2.2.1 (j := j)).1 (n, j) (by
      rw [List.getElem?_zipIdx, hn']; simp)
    rw [eA, eA', g1, g1']
    have e : mkColumn [[0, 0], [1, (1 : ℚ)]] [] defaultBounds (.str "relative") j n =
        mkColumn [[0, 0], [1, (1 : ℚ)]] [] defaultBounds (.str "relative") i n := by
      have hc : column [[0, 0], [1, (1 : ℚ)]] j = column [[0, 0], [1, (1 : ℚ)]] i := by
        interval_cases i <;> interval_cases j <;> rfl
      unfold mkColumn; rw [hc]
    dsimp only at g2 g2'
    rw [e, g2] at g2'
    exact congrArg some (Except.ok.inj g2')
  have hl : A.elems.length = 2 := by rw [eA, hA0.wf.length, (mkActionSet_spec h1).2.2.2.2.2.1]; rfl
  have hl' : A'.elems.length = 2 := by rw [eA', hA0'.wf.length, (mkActionSet_spec h3).2.2.2.2.2.1]; rfl
  obtain ⟨ea, eb, hE⟩ := List.length_eq_two.mp hl
  obtain ⟨eb', ea', hE'⟩ := List.length_eq_two.mp hl'
  have q1 := hcol 0 1 "a" (by decide) (by decide) rfl rfl
  have q2 := hcol 1 0 "b" (by decide) (by decide) rfl rfl
  rw [hE, hE'] at q1 q2
  obtain rfl : ea = ea' := Option.some.inj q1
  obtain rfl : eb = eb' := Option.some.inj q2
  have hlim : ∀ {A : ActionSet ℚ} {l : List String}, A.cons.items.map (fun k => (k.names, k.lb, k.ub)) = [(l, 0, 1)] →
      ∃ k, A.cons.items = [k] ∧ k.names = l ∧ k.lb = 0 ∧ k.ub = 1 := by
    intro A l hA
    have hlen : A.cons.items.length = 1 := by
      have := congrArg List.length hA
      rwa [List.length_map] at this
    obtain ⟨k, hk⟩ := List.length_eq_one_iff.mp hlen
    rw [hk] at hA
    simp only [List.map_cons, List.map_nil, List.cons.injEq, and_true, Prod.mk.injEq] at hA
    exact ⟨k, hk, hA⟩
  obtain ⟨k, i1, i2, i3, i4⟩ := hlim k2
  obtain ⟨k', j1, j2, j3, j4⟩ := hlim k3
  have hsame : SameLimits A A' := by
    unfold SameLimits
    rw [i1, j1]
    refine ⟨fun m hm => ⟨k', List.mem_singleton_self _, ?_⟩, fun m hm => ⟨k, List.mem_singleton_self _, ?_⟩⟩
    · rw [List.mem_singleton.mp hm, i2, i3, i4, j2, j3, j4]; exact ⟨.swap _ _ _, rfl, rfl⟩
    · rw [List.mem_singleton.mp hm, i2, i3, i4, j2, j3, j4]; exact ⟨.swap _ _ _, rfl, rfl⟩
  have hred : (A'.elems.zip ([(2 : ℚ), 1].zip [(0 : ℚ), 0])).Perm (A.elems.zip ([1, 2].zip [0, 0])) := by
    rw [hE, hE']
    exact .swap _ _ _
  have hne : A'.elems ≠ A.elems := by
    intro hc
    have n1 := hA.wf.names
    have n2 := hA'.wf.names
    rw [← hc, n2] at n1
    rw [k4', k5'] at n1
    revert n1
    decide
  have rb : b.Reachable exExt := .mk hA h5
  have rd : d.Reachable exExt := .mk hA' h6
  have s1 := situated_of_b rb.ok exExt_pos h7
  have s2 := situated_of_b rd.ok exExt_pos h8
  obtain ⟨b1, hx⟩ : ∃ b1, b.setX exExt [0, 0] = (b1, .ok ()) := ⟨_, Prod.ext rfl h9⟩
  have hall := C77_subsets_partial exExt_order hA hA' k1 hsame hred h5 h6 s1.limits s2.limits rfl rfl
  obtain ⟨d1, hx'⟩ : ∃ d1, d.setX exExt [0, 0] = (d1, .ok ()) :=
    ⟨_, Prod.ext rfl ((hall.1 exExt_once exExt_increasing s1.placed).mpr h9)⟩
  refine ⟨A, A', b, d, b1, d1, hA, hA', k1, hsame, hred, hne, by rw [i1]; simp, h5, h6, s1.limits, s2.limits, s1.placed,
    hx, hx', fun o ho => ?_⟩
  obtain ⟨b', i, hf, hi⟩ : ∃ b' i, b1.fit o = .ok (b', i) ∧ i.feasible = true := by
    obtain ⟨b1', feats, g1, -, g2, b', i, g3, g4⟩ := exSolve exExt_order rb h9 ho
    rw [g1] at hx
    obtain ⟨rfl, -⟩ := Prod.mk.inj hx
    refine ⟨b', i, g3, ?_⟩
    rcases g4 with ⟨h, -⟩ | ⟨κ, -, -, hf, -⟩
    · rw [g2] at h10; exact absurd h h10
    · exact hf
  obtain ⟨feats, g1, g2, g3⟩ := Posed.setX exExt_order rd.ok hx'
  obtain ⟨m, hm, -⟩ := g3.mip
  have hf' : d1.fit o = .ok (d1.solve o, (d1.solve o).solutionInfo) := by unfold Builder.fit; rw [hm]
  refine ⟨b', i, _, _, hf, hf', hi, ?_⟩
  rw [(hall.2 ho ho hx hx' .refl .refl hf hf').1, hi]

end Recourse
