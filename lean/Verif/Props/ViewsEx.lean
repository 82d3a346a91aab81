import Verif.Props.Views
import Verif.Props.FlipEx

/-!
# Tables and lists that a flipset hands out: examples and refutations
-/

set_option linter.unusedSectionVars false

namespace Recourse

/-- Non-vacuity of C113: the flipset of `C49_example`.  A program takes the table, populates, takes the table again, empties the first one, sorts by cost and
takes the flat table.  The second table is a new object; the first one is empty, the second has at least three rows, and the
flipset is the one that the program without the change makes. -/
theorem C113_example (be : Backend) (ct : CostType) : ∃ A : ActionSet ℚ, A.Reachable exExt ∧ ∀ o : Oracle ℚ, o.Exact → ∃ (s s' : Shown ℚ) (l : List (FlatLine ℚ)),
    s = .new (mkFlipset be A [0, 0] [1, 2] (-1) none) ∧ s.Ok ∧
    s.run exExt [.df, .populate o 5 none .distinctSubsets ct, .df, .edit 0 [], .sortBy [.cost] true, .flat] =
      some (s', [.table 0, .done (.ok ()), .table 1, .done (.ok ()), .done (.ok ()), .lines l]) ∧
    OldEdits exExt s [.df, .populate o 5 none .distinctSubsets ct, .df, .edit 0 [], .sortBy [.cost] true, .flat] ∧
    s'.cur = 1 ∧ s'.tables[0]? = some [] ∧ 3 ≤ s'.flipset.rows.length := by
  obtain ⟨A, c, hA, -, -, -, -, -, -, H⟩ := C49_example be ct
  refine ⟨A, hA, fun o ho => ?_⟩
  obtain ⟨fs', h1, -, hreach, -, hrows⟩ := H o ho
  set s : Shown ℚ := .new (mkFlipset be A [0, 0] [1, 2] (-1) none) with hs
  have hlen : s.fs.items.length < fs'.items.length := by
    have := (C49_table hreach).2.2
    unfold Flipset.len at this
    show 0 < _
    omega
  have hpop : s.step exExt (.populate o 5 none .distinctSubsets ct) = some (s.fresh fs', .done (.ok ())) := by
    unfold Shown.step Shown.populate
    dsimp only
    rw [show s.flipset = mkFlipset be A [0, 0] [1, 2] (-1) none from rfl, h1]
    dsimp only
    rw [if_pos hlen]
  set s1 : Shown ℚ := s.fresh fs' with hs1
  set s2 : Shown ℚ := { s1 with tables := s1.tables.set 0 [] } with hs2
  have h2 : s2.flipset = fs' := rfl
  set g : Flipset ℚ := ({ fs' with sortBy := [.cost], sortInplace := true } : Flipset ℚ).resort with hg
  have hsort : s2.step exExt (.sortBy [.cost] true) = some (s2.inPlace g, .done (.ok ())) := by
    unfold Shown.step
    dsimp only
    rw [h2]
    rfl
  set s3 : Shown ℚ := s2.inPlace g with hs3
  have h3 : s3.flipset = g := rfl
  refine ⟨s, s3.inPlace g.resort, g.toFlat.2, hs, one_pos, ?_, ?_, rfl, rfl, ?_⟩
  · unfold Shown.run
    rw [show s.step exExt .df = some (s, .table 0) from rfl]
    dsimp only
    unfold Shown.run
    rw [hpop]
    dsimp only
    unfold Shown.run
    rw [show s1.step exExt .df = some (s1, .table 1) from rfl]
    dsimp only
    unfold Shown.run
    rw [show s1.step exExt (.edit 0 []) = some (s2, .done (.ok ())) from rfl]
    dsimp only
    unfold Shown.run
    rw [hsort]
    dsimp only
    unfold Shown.run
    rw [show s3.step exExt .flat = some (s3.inPlace g.resort, .lines g.toFlat.2) from rfl]
    rfl
  · refine ⟨fun _ _ h => (by cases h), fun _ h => (by cases h), fun t out ht => ?_⟩
    cases ht
    refine ⟨fun _ _ h => (by cases h), fun _ h => (by cases h), fun t out ht => ?_⟩
    rw [hpop] at ht
    cases ht
    refine ⟨fun _ _ h => (by cases h), fun _ h => (by cases h), fun t out ht => ?_⟩
    cases ht
    refine ⟨fun n rows h => ?_, fun _ h => (by cases h), fun t out ht => ?_⟩
    · cases h
      show (0 : ℕ) ≠ 1
      decide
    cases ht
    refine ⟨fun _ _ h => (by cases h), fun _ h => (by cases h), fun t out ht => ?_⟩
    refine ⟨fun _ _ h => (by cases h), fun _ h => (by cases h), fun t out ht => ?_⟩
    trivial
  · have e1 := (resort_fields g).2.2.2.2.2.2.2.length_eq
    have e2 := (resort_fields ({ fs' with sortBy := [.cost], sortInplace := true } : Flipset ℚ)).2.2.2.2.2.2.2.length_eq
    rw [← hg] at e2
    show 3 ≤ g.resort.rows.length
    rw [e1, e2]
    exact hrows

/-- The flipset does not protect itself against changes of the objects it hands out: when a program removes the rows of the data frame that `df` returned,
the flat table of the flipset has no lines although its items are still there, and removing the items from the list that
`solutions_info` returned removes them from the flipset. -/
theorem C113_protected_refuted (be : Backend) (ct : CostType) : ∃ (A : ActionSet ℚ), A.Reachable exExt ∧ ∀ o : Oracle ℚ, o.Exact → ∃ (s t u : Shown ℚ) (q : List (Option (List ℚ))),
    s.flipset.Reachable exExt (some [.size, .cost, .scoreNew]) ∧ s.Ok ∧ 3 ≤ q.length ∧ 3 ≤ s.flipset.rows.length ∧
    s.run exExt [.items, .df, .edit 1 [], .flat, .items] = some (t, [.items q, .table 1, .done (.ok ()), .lines [], .items q]) ∧
    s.run exExt [.items, .editItems [], .items] = some (u, [.items q, .done (.ok ()), .items []]) ∧
    u.flipset.len = 0 ∧ 3 ≤ u.flipset.rows.length := by
  obtain ⟨A, c, hA, -, -, -, -, -, -, H⟩ := C49_example be ct
  refine ⟨A, hA, fun o ho => ?_⟩
  obtain ⟨fs', h1, -, hreach, -, hrows⟩ := H o ho
  have hl : 3 ≤ fs'.items.length := by
    have := (C49_table hreach).2.2
    unfold Flipset.len at this
    omega
  set s : Shown ℚ := (Shown.new (mkFlipset be A [0, 0] [1, 2] (-1) none)).fresh fs' with hs
  have hf : s.flipset = fs' := rfl
  have hne : ∀ i : FlipRow ℚ, i ∉ ({ s with tables := s.tables.set 1 [] } : Shown ℚ).flipset.resort.rows := by
    intro i hi
    have := ((resort_fields ({ s with tables := s.tables.set 1 [] } : Shown ℚ).flipset).2.2.2.2.2.2.2).mem_iff.mp hi
    cases this
  have hnil := List.eq_nil_iff_forall_not_mem.mpr hne
  refine ⟨s, ({ s with tables := s.tables.set 1 [] } : Shown ℚ).inPlace ({ s with tables := s.tables.set 1 [] } : Shown ℚ).flipset.toFlat.1, _, fs'.items.map (·.actions), hf ▸ hreach, (show 1 < 2 by decide), by rw [List.length_map]; exact hl, hf ▸ hrows, ?_, rfl, rfl, hrows⟩
  · unfold Shown.run
    rw [show s.step exExt .items = some (s, .items (fs'.items.map (·.actions))) from rfl]
    dsimp only
    unfold Shown.run
    rw [show s.step exExt .df = some (s, .table 1) from rfl]
    dsimp only
    unfold Shown.run
    rw [show s.step exExt (.edit 1 []) = some ({ s with tables := s.tables.set 1 [] }, .done (.ok ())) from rfl]
    dsimp only
    set t : Shown ℚ := { s with tables := s.tables.set 1 [] } with ht
    have hlines : t.flipset.toFlat.2 = [] := by
      unfold Flipset.toFlat
      dsimp only
      rw [hnil]
      rfl
    unfold Shown.run
    rw [show t.step exExt .flat = some (t.inPlace t.flipset.toFlat.1, .lines t.flipset.toFlat.2) from rfl, hlines]
    dsimp only
    unfold Shown.run
    rw [show (t.inPlace t.flipset.toFlat.1).step exExt .items = some (t.inPlace t.flipset.toFlat.1, .items (fs'.items.map (·.actions))) from
      show some (_, ShownOut.items (t.flipset.resort.items.map (·.actions))) = _ by rw [(resort_fields t.flipset).1]; rfl]
    rfl

end Recourse
