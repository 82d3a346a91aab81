import Verif.Props.Args
import Verif.Props.Solvers
import Verif.Props.Constraints
import Verif.Props.Symmetry
import Verif.Props.Audit

/-!
# C96: the project's own tests, for all data

Each theorem follows one test function of `/repo/tests`, statement by statement, with the data, the classifier and the
solver replaced by variables.  (`test_rb_onehot_encoding` is C92, `test_compare_flipsets` C93, `test_compare_auditors` C95.)
-/

set_option linter.unusedSectionVars false

namespace Recourse

variable {K : Type} [Field K] [LinearOrder K] [IsStrictOrderedRing K] [FloorRing K]

variable {ext : Ext K} {o : Oracle K} {A A' : ActionSet K}

/-! ## Reading attributes of all features -/

theorem mapM_pure_ok {α β : Type} (f : α → β) (l : List α) :
    (l.mapM fun a => (.ok (f a) : Except Err β)) = .ok (l.map f) := by
  induction l with
  | nil => rfl
  | cons a l ih => rw [List.mapM_cons, ok_bind, ih]; rfl

theorem getAttr_name (A : ActionSet K) : A.getAttr "name" = .ok (.list (A.elems.map fun e => .str e.name)) := by
  unfold ActionSet.getAttr
  rw [if_neg (by decide)]
  change (A.elems.mapM (fun e => Except.ok (PyVal.str e.name)) >>= _) = _
  rw [mapM_pure_ok]; rfl

/-- A flip direction as Python shows it (NaN is `PyVal.none`). -/
def shownFlip : Option Int → PyVal K
  | some f => .int f
  | none => .none

/-- Compatibility as Python shows it. -/
def shownCompat : Option Bool → PyVal K
  | some b => .bool b
  | none => .none

theorem getAttr_flip (A : ActionSet K) :
    A.getAttr "flip_direction" = .ok (.list (A.elems.map fun e => shownFlip e.flip)) := by
  unfold ActionSet.getAttr
  rw [if_neg (by decide)]
  have : (A.elems.mapM fun e => e.getAttr "flip_direction") = .ok (A.elems.map fun e => shownFlip e.flip) := by
    rw [← mapM_pure_ok]
    congr 1
  rw [this]; rfl

theorem getAttr_compatible (A : ActionSet K) :
    A.getAttr "compatible" = .ok (.list (A.elems.map fun e => shownCompat e.compatible)) := by
  unfold ActionSet.getAttr
  rw [if_neg (by decide)]
  have : (A.elems.mapM fun e => e.getAttr "compatible") = .ok (A.elems.map fun e => shownCompat e.compatible) := by
    rw [← mapM_pure_ok]
    congr 1
  rw [this]; rfl

theorem getAttr_known (A : ActionSet K) : A.getAttr "alignment_known" = .ok (.bool A.alignmentKnown) := by
  unfold ActionSet.getAttr
  rw [if_pos (Or.inr (by decide)), if_neg (by decide), if_pos rfl]

theorem getAttr_y (A : ActionSet K) : A.getAttr "y_desired" = .ok (.int A.yDesired) := by
  unfold ActionSet.getAttr
  rw [if_pos (Or.inr (by decide)), if_pos rfl]

/-! ## tests/test_action_set.py -/

/-- **C96**, `test_initialization`: a data frame and its values with the list of its columns give the same
action set, and the names of the features are the columns. -/
theorem C96_initialization (cols : List (PyVal K)) (X : List (List K)) (names y : PyVal K) (kw : SetKwargs K) :
    newActionSet (.frame cols X) names y kw = newActionSet (.matrix X) (.list cols) y kw ∧
    ∀ A, newActionSet (.frame cols X) names y kw = .ok A → A.getAttr "name" = .ok (.list cols) := by
  refine ⟨rfl, fun A h => ?_⟩
  obtain ⟨X', ns, yi, p, c, A0, hd, -, -, -, hm, rfl⟩ := (C86_construct _ _ _ _).mp h
  rw [getAttr_name]
  have hwf := (ActionSet.Reachable.mk (ext := ⟨fun _ => 0, fun _ => .ok fun _ => 0, id⟩) hm).wf
  have hn := (mkActionSet_spec hm).2.2.2.2.2.1
  have hcols : cols = ns.map .str := by
    rcases hd with ⟨hd, -⟩ | hd
    · cases hd
    · cases hd; rfl
  rw [hcols]
  have : A0.elems.map (fun e => (PyVal.str e.name : PyVal K)) = (A0.elems.map (·.name)).map .str := by
    rw [List.map_map]; rfl
  dsimp only
  rw [this, hwf.names, hn]

/-- **C96**, `test_y_desired`, constructor: 1 gives 1, -1 and 0 give -1. -/
theorem C96_y_constructor (d : DataArg K) (names : PyVal K) (kw : SetKwargs K) :
    (∀ A, newActionSet d names (.int 1) kw = .ok A → A.getAttr "y_desired" = .ok (.int 1)) ∧
    (∀ A, newActionSet d names (.int (-1)) kw = .ok A → A.getAttr "y_desired" = .ok (.int (-1))) ∧
    (∀ A, newActionSet d names (.int 0) kw = .ok A → A.getAttr "y_desired" = .ok (.int (-1))) := by
  have key : ∀ (z : Int) A, newActionSet d names (.int z) kw = .ok A →
      A.getAttr "y_desired" = .ok (.int (if 0 < z then 1 else -1)) := by
    intro z A h
    obtain ⟨X', ns, yi, p, c, A0, hd, hy, -, -, hm, rfl⟩ := (C86_construct _ _ _ _).mp h
    have hz : z = yi := by
      rcases hy.2 with h | ⟨w, h, -⟩
      · exact h
      · cases h
    subst hz
    rw [getAttr_y]
    dsimp only
    rw [(mkActionSet_spec hm).2.2.2.2.2.2.2]
  refine ⟨fun A h => ?_, fun A h => ?_, fun A h => ?_⟩
  · have := key _ A h; rwa [if_pos (by norm_num)] at this
  · have := key _ A h; rwa [if_neg (by norm_num)] at this
  · have := key _ A h; rwa [if_neg (by norm_num)] at this

/-- **C13**, which values `y_desired` takes: -1, 0 and 1, as integers, floats, truth values or arrays of one of them; it then reads
1 or -1.  Everything else raises an `AssertionError` and changes nothing. -/
theorem C13_values (hA : A.Reachable ext) (v : PyVal K) :
    (∀ z, IsOutcome v z → ∃ A', A.setAttr "y_desired" v = (A', .ok ()) ∧
      A'.getAttr "y_desired" = .ok (.int (if 0 < z then 1 else -1)) ∧ A'.names = A.names ∧ A'.cons = A.cons) ∧
    ((∀ z, ¬ IsOutcome v z) → A.setAttr "y_desired" v = (A, .error .assertion)) := by
  refine ⟨fun z hz => ?_, fun hno => ?_⟩
  · obtain ⟨hv, hz⟩ := yValue_iff.mpr hz
    have hs : ∃ A', A.setYDesired z = .ok A' := by
      unfold ActionSet.setYDesired
      rw [decide_eq_true hz, show pyAssert true = .ok () from rfl, ok_bind]
      dsimp only
      by_cases h : z ≠ A.yDesired
      · rw [if_pos h]
        by_cases hk : ({ A with yDesired := if 0 < z then 1 else -1 } : ActionSet K).alignmentKnown = true
        · rw [if_pos hk]; exact ⟨_, rfl⟩
        · rw [if_neg hk]; exact ⟨_, rfl⟩
      · rw [if_neg h]; exact ⟨_, rfl⟩
    obtain ⟨A', hs⟩ := hs
    refine ⟨A', ?_, ?_, ?_⟩
    · unfold ActionSet.setAttr
      rw [if_neg (by decide), if_pos rfl, hv]
      dsimp only
      rw [hs]
    · rw [getAttr_y]
      obtain ⟨-, ⟨h1, rfl⟩ | ⟨-, -, rfl⟩ | ⟨-, -, rfl⟩⟩ := setYDesired_ok hs
      · rcases hA.wf.y with h | h
        · rw [h1, h]; rfl
        · rw [h1, h]; rfl
      · rfl
      · rfl
    · obtain ⟨-, ⟨-, rfl⟩ | ⟨-, -, rfl⟩ | ⟨-, -, rfl⟩⟩ := setYDesired_ok hs <;> exact ⟨rfl, rfl⟩
  · unfold ActionSet.setAttr
    rw [if_neg (by decide), if_pos rfl]
    cases hv : yValue v with
    | none => rfl
    | some y =>
      dsimp only
      unfold ActionSet.setYDesired
      rw [decide_eq_false (fun hy => hno y (yValue_iff.mp ⟨hv, hy⟩))]
      rfl

/-- **C63**, attributes of the set that are computed (`df`, `alignment_known`, `constraints`) cannot be assigned; the attempt raises an
`AttributeError` and changes nothing. -/
theorem C63_readonly (A : ActionSet K) {attr : String} (h : attr = "df" ∨ attr = "alignment_known" ∨ attr = "constraints")
    (v : PyVal K) : A.setAttr attr v = (A, .error .attribute) := by
  rcases h with rfl | rfl | rfl <;> rfl

/-- **C96**, `test_y_desired`, setter: after any history, assigning 1.0 gives 1, assigning -1.0 or 0.0 gives -1. -/
theorem C96_y_setter (hA : A.Reachable ext) :
    (∃ A', A.setAttr "y_desired" (.flt 1) = (A', .ok ()) ∧ A'.getAttr "y_desired" = .ok (.int 1)) ∧
    (∃ A', A.setAttr "y_desired" (.flt (-1)) = (A', .ok ()) ∧ A'.getAttr "y_desired" = .ok (.int (-1))) ∧
    (∃ A', A.setAttr "y_desired" (.flt 0) = (A', .ok ()) ∧ A'.getAttr "y_desired" = .ok (.int (-1))) := by
  have key : ∀ (z : Int), (z = -1 ∨ z = 0 ∨ z = 1) → ∃ A', A.setAttr "y_desired" (.flt (z : K)) = (A', .ok ()) ∧
      A'.getAttr "y_desired" = .ok (.int (if 0 < z then 1 else -1)) := by
    intro z hz
    obtain ⟨A', h1, h2, -⟩ := (C13_values hA (.flt (z : K))).1 z ⟨hz, Or.inl rfl⟩
    exact ⟨A', h1, h2⟩
  refine ⟨?_, ?_, ?_⟩
  · have := key 1 (by norm_num); simpa using this
  · have := key (-1) (by norm_num); simpa using this
  · have := key 0 (by norm_num); simpa using this

/-- Non-vacuity of `C13_values`: `True` and an array holding 0.0 are accepted, 1/2 is not. -/
example : IsOutcome (.bool true : PyVal ℚ) 1 ∧ IsOutcome (.arr [.flt 0] : PyVal ℚ) 0 ∧ ∀ z, ¬ IsOutcome (.flt (1 / 2) : PyVal ℚ) z := by
  refine ⟨⟨by norm_num, Or.inl rfl⟩, ⟨by norm_num, Or.inr ⟨_, rfl, by show (0 : ℚ) = ((0 : Int) : ℚ); norm_num⟩⟩, ?_⟩
  rintro z ⟨hz, h | ⟨w, h, -⟩⟩
  · have h' : (1 / 2 : ℚ) = (z : ℚ) := h
    rcases hz with rfl | rfl | rfl <;> norm_num at h'
  · cases h

/-- **C96**, `test_align`: a new set has no alignment, and all flip directions and compatibilities are NaN; aligning
it with any coefficients gives every feature a flip direction and a compatibility; assigning `-y_desired` negates all flip
directions; and so does aligning another new set for the same data with the opposite coefficients. -/
theorem C96_align {d : DataArg K} {names y : PyVal K} {kw : SetKwargs K} (hA : newActionSet d names y kw = .ok A)
    {w : List K} (hw : w.length = A.names.length) :
    A.getAttr "alignment_known" = .ok (.bool false) ∧
    A.getAttr "flip_direction" = .ok (.list (List.replicate A.names.length .none)) ∧
    A.getAttr "compatible" = .ok (.list (List.replicate A.names.length .none)) ∧
    ∃ (A1 A2 B1 : ActionSet K) (fd : List Int) (cs : List Bool),
      A.setAlignment w = .ok A1 ∧ A1.getAttr "alignment_known" = .ok (.bool true) ∧
      fd.length = A.names.length ∧ A1.getAttr "flip_direction" = .ok (.list (fd.map .int)) ∧
      cs.length = A.names.length ∧ A1.getAttr "compatible" = .ok (.list (cs.map .bool)) ∧
      A1.setAttr "y_desired" (.int (-A1.yDesired)) = (A2, .ok ()) ∧
      A2.getAttr "flip_direction" = .ok (.list (fd.map fun f => .int (-f))) ∧
      A.setAlignment (w.map fun c => -c) = .ok B1 ∧
      B1.getAttr "flip_direction" = .ok (.list (fd.map fun f => .int (-f))) := by
  obtain ⟨X', ns, yi, p, c, A0, -, -, -, -, hm, rfl⟩ := (C86_construct _ _ _ _).mp hA
  obtain ⟨-, -, -, -, -, hn, hlen, -, hy, hk, hel⟩ := C17_construction hm
  dsimp only at hw ⊢
  have hlen' : A0.elems.length = A0.names.length := by rw [hlen, hn]
  have hfl : ∀ e ∈ A0.elems, e.flip = none := by
    intro e he
    obtain ⟨j, hj⟩ := List.mem_iff_getElem?.mp he
    exact (hel j e hj).2.2.2.1
  refine ⟨by rw [getAttr_known]; exact congrArg (fun b => Except.ok (PyVal.bool b)) hk, ?_, ?_, ?_⟩
  · rw [getAttr_flip]
    dsimp only
    rw [← hlen']
    congr 2
    rw [List.eq_replicate_iff]
    refine ⟨List.length_map _, ?_⟩
    intro v hv
    obtain ⟨e, he, rfl⟩ := List.mem_map.mp hv
    rw [hfl e he]; rfl
  · rw [getAttr_compatible]
    dsimp only
    rw [← hlen']
    congr 2
    rw [List.eq_replicate_iff]
    refine ⟨List.length_map _, ?_⟩
    intro v hv
    obtain ⟨e, he, rfl⟩ := List.mem_map.mp hv
    unfold Elem.compatible; rw [hfl e he]; rfl
  · have hsg : ∀ c : K, Int.sign (sgn c) = sgn c := by
      intro c; unfold sgn; split_ifs <;> rfl
    have hsn : ∀ c : K, sgn (-c) = - sgn c := by
      intro c
      rcases lt_trichotomy c 0 with h | h | h
      · simp [sgn, h, not_lt.mpr h.le]
      · simp [sgn, h]
      · simp [sgn, h, not_lt.mpr h.le]
    have halign : ∀ v : List K, v.length = A0.names.length →
        ({ A0 with extra := [("check_flag", .bool c), ("print_flag", .bool p)] } : ActionSet K).setAlignment v = .ok
          { A0 with extra := [("check_flag", .bool c), ("print_flag", .bool p)]
                    elems := List.zipWith Elem.setFlip A0.elems (v.map fun c => if 0 < A0.yDesired then sgn c else -(sgn c)) } := by
      intro v hv
      unfold ActionSet.setAlignment
      rw [decide_eq_true hv]
      rfl
    have hflip : ∀ (l : List (Elem K)) (v : List K), v.length = l.length →
        (List.zipWith Elem.setFlip l (v.map fun c => if 0 < A0.yDesired then sgn c else -(sgn c))).map (fun e => shownFlip (K := K) e.flip)
          = (v.map fun c => if 0 < A0.yDesired then sgn c else -(sgn c)).map .int := by
      intro l
      induction l with
      | nil => intro v hv; rw [List.length_eq_zero_iff.mp hv]; rfl
      | cons e l ih =>
        intro v hv
        cases v with
        | nil => simp at hv
        | cons c v =>
          rw [List.map_cons, List.zipWith_cons_cons, List.map_cons, List.map_cons, ih v (by simpa using hv)]
          congr 1
          unfold Elem.setFlip shownFlip
          dsimp only
          split_ifs
          · rw [hsg]
          · rw [Int.sign_neg, hsg]
    have hw' : w.length = A0.elems.length := by rw [hw, hlen']
    have hal : ∀ e ∈ List.zipWith Elem.setFlip A0.elems (w.map fun c => if 0 < A0.yDesired then sgn c else -(sgn c)),
        ∃ f, e.flip = some f := by
      intro e he
      obtain ⟨j, hj⟩ := List.mem_iff_getElem?.mp he
      obtain ⟨e0, f, -, -, rfl⟩ := List.getElem?_zipWith_eq_some.mp hj
      exact ⟨_, rfl⟩
    set L := List.zipWith Elem.setFlip A0.elems (w.map fun c => if 0 < A0.yDesired then sgn c else -(sgn c)) with hL
    have hknown : ∀ z : Int, ({ A0 with extra := [("check_flag", .bool c), ("print_flag", .bool p)], elems := L, yDesired := z } :
        ActionSet K).alignmentKnown = true := by
      intro z
      unfold ActionSet.alignmentKnown
      rw [List.all_eq_true]
      intro e he
      obtain ⟨f, hf⟩ := hal e he
      unfold Elem.aligned; rw [hf]; rfl
    refine ⟨{ A0 with extra := [("check_flag", .bool c), ("print_flag", .bool p)], elems := L },
      { A0 with extra := [("check_flag", .bool c), ("print_flag", .bool p)]
                yDesired := -A0.yDesired
                elems := L.map fun e => e.setFlip (-(e.flip.getD 0)) },
      { A0 with extra := [("check_flag", .bool c), ("print_flag", .bool p)]
                elems := List.zipWith Elem.setFlip A0.elems
                  ((w.map fun c => -c).map fun c => if 0 < A0.yDesired then sgn c else -(sgn c)) },
      w.map fun c => if 0 < A0.yDesired then sgn c else -(sgn c),
      L.map (fun e => e.compatible.getD true), ?_, ?_, ?_, ?_, ?_, ?_, ?_, ?_, ?_, ?_⟩
    · exact halign w hw
    · rw [getAttr_known]; exact congrArg (fun b => Except.ok (PyVal.bool b)) (hknown A0.yDesired)
    · rw [List.length_map]; exact hw
    · rw [getAttr_flip]
      exact congrArg (fun l => Except.ok (PyVal.list l)) (hflip A0.elems w hw')
    · rw [List.length_map, hL, List.length_zipWith, List.length_map, ← hw', Nat.min_self]; exact hw
    · rw [getAttr_compatible]
      dsimp only
      congr 2
      rw [List.map_map]
      apply List.map_congr_left
      intro e he
      obtain ⟨f, hf⟩ := hal e he
      simp only [Function.comp]
      unfold Elem.compatible
      rw [hf]
      dsimp only
      cases e.actionable <;> rfl
    · unfold ActionSet.setAttr
      rw [if_neg (by decide), if_pos rfl]
      dsimp only [yValue]
      have hz : (-A0.yDesired = -1 ∨ -A0.yDesired = 0 ∨ -A0.yDesired = 1) := by rcases hy with h | h <;> rw [h] <;> norm_num
      have hz' : (if 0 < -A0.yDesired then (1 : Int) else -1) = -A0.yDesired := by
        rcases hy with h | h <;> rw [h] <;> norm_num
      unfold ActionSet.setYDesired
      rw [decide_eq_true hz, show pyAssert true = .ok () from rfl, ok_bind]
      dsimp only
      rw [if_pos (by rcases hy with h | h <;> rw [h] <;> norm_num), hz', if_pos (hknown _)]
    · rw [getAttr_flip]
      dsimp only
      congr 2
      have h1 := hflip A0.elems w hw'
      rw [← hL] at h1
      have h2 : ∀ (l : List (Elem K)) (fd : List Int), (∀ e ∈ l, ∃ f, e.flip = some f) → (∀ f ∈ fd, Int.sign (-f) = -f) →
          l.map (fun e => shownFlip (K := K) e.flip) = fd.map .int →
          (l.map fun e => e.setFlip (-(e.flip.getD 0))).map (fun e => shownFlip (K := K) e.flip) = fd.map fun f => .int (-f) := by
        intro l
        induction l with
        | nil => intro fd _ _ h; rw [List.map_nil, eq_comm, List.map_eq_nil_iff] at h; rw [h]; rfl
        | cons e l ih =>
          intro fd he hs h
          cases fd with
          | nil => simp at h
          | cons f fd =>
            rw [List.map_cons, List.map_cons, List.cons.injEq] at h
            obtain ⟨h1, h2⟩ := h
            obtain ⟨g, hg⟩ := he e (by simp)
            rw [hg] at h1
            have hgf : g = f := by cases h1; rfl
            rw [List.map_cons, List.map_cons, List.map_cons, ih fd (fun e h => he e (by simp [h])) (fun f h => hs f (by simp [h])) h2]
            congr 1
            unfold Elem.setFlip shownFlip
            rw [hg, hgf]
            dsimp only [Option.getD_some]
            rw [hs f (by simp)]
      refine h2 L _ hal ?_ h1
      intro f hf
      obtain ⟨a, -, rfl⟩ := List.mem_map.mp hf
      split_ifs
      · rw [Int.sign_neg, hsg]
      · rw [neg_neg, hsg]
    · exact halign _ (by rw [List.length_map]; exact hw)
    · rw [getAttr_flip]
      dsimp only
      rw [hflip A0.elems _ (by rw [List.length_map]; exact hw')]
      congr 2
      rw [List.map_map, List.map_map, List.map_map]
      apply List.map_congr_left
      intro a _
      simp only [Function.comp, hsn]
      split_ifs <;> rfl

/-- Adding one constraint per number `0 ≤ n < k` (the loop of `test_subset_constraints`). -/
def addUpTo (ns : List String) (l : List ℕ) (A : ActionSet K) : Except Err (ActionSet K) :=
  l.foldlM (fun (A : ActionSet K) (n : ℕ) => (A.addConstraint ns 0 (n : Int) none).map (·.1)) A

/-- **C96**, `test_subset_constraints`: on a new set, for any two or more distinct features: there is no constraint; after adding one
there is one; after removing it there is none; after adding the limits `0..n` for `n = 0, ..., k - 1` there are `k`. -/
theorem C96_subset_constraints {d : DataArg K} {names y : PyVal K} {kw : SetKwargs K} (hA : newActionSet d names y kw = .ok A)
    {ns : List String} (hnd : ns.Nodup) (hns : ∀ n ∈ ns, n ∈ A.names) (h2 : 2 ≤ ns.length) :
    A.cons.items.length = 0 ∧ ∃ A1 id A2 A3, A.addConstraint ns 1 1 none = .ok (A1, id) ∧ A1.cons.items.length = 1 ∧
      A1.removeConstraint id = .ok A2 ∧ A2.cons.items.length = 0 ∧
      addUpTo ns (List.range ns.length) A2 = .ok A3 ∧ A3.cons.items.length = ns.length := by
  obtain ⟨X', nn, yi, p, c, A0, -, -, -, -, hm, rfl⟩ := (C86_construct _ _ _ _).mp hA
  obtain ⟨hv, -, -, -, -, hn, hc, -⟩ := mkActionSet_spec hm
  dsimp only at hns ⊢
  have hsub : ns.length ≤ A0.names.length := by
    exact (hnd.subperm hns).length_le
  have hne : checkVariableNames ns = true := by
    unfold checkVariableNames at hv ⊢
    simp only [Bool.and_eq_true, decide_eq_true_eq, List.all_eq_true] at hv ⊢
    exact ⟨⟨by omega, fun n h => hv.1.2 n (by rw [← hn]; exact hns n h)⟩, hnd⟩
  have hadd : ∀ (c0 : Constraints) (lb ub : Int), c0.names = A0.names → (∀ i ∈ c0.ids, ∃ k < c0.counter, i = toString k) →
      0 ≤ lb → lb ≤ ub → ub ≤ A0.names.length → ∃ c1, c0.add ns lb ub none = .ok (c1, toString c0.counter) ∧
        c1.names = A0.names ∧ c1.counter = c0.counter + 1 ∧ c1.items.length = c0.items.length + 1 ∧
        (∀ i ∈ c1.ids, ∃ k < c1.counter, i = toString k) ∧
        (c0.items = [] → ∃ c2, c1.remove (toString c0.counter) = .ok c2 ∧ c2.names = A0.names ∧ c2.items = []) := by
    intro c0 lb ub hcn hids h0 hle hub
    have hpos : 0 < (toString c0.counter).length := by
      rw [Nat.pos_iff_ne_zero]
      intro h
      have := String.length_eq_zero_iff.mp h
      exact Nat.repr_ne_empty this
    have hr : ∃ c1 i, c0.add ns lb ub none = .ok (c1, i) := by
      unfold Constraints.add
      dsimp only [Option.getD_none]
      rw [decide_eq_true hpos, hne, hcn, decide_eq_true (⟨h2, hsub⟩ : 2 ≤ ns.length ∧ ns.length ≤ A0.names.length)]
      simp only [show pyAssert true = .ok () from rfl, ok_bind]
      rw [if_pos (by simpa using hns), decide_eq_true (⟨h0, hle.trans hub⟩), decide_eq_true (⟨h0.trans hle, hub⟩), decide_eq_true hle]
      simp only [show pyAssert true = .ok () from rfl, ok_bind]
      exact ⟨_, _, rfl⟩
    obtain ⟨c1, i, hr⟩ := hr
    obtain ⟨hi, -, -, -, -, -, -, -, hn1, hcnt, k, hk, -, -, -, -, hit⟩ := add_ok hr
    simp only [Option.getD_none] at hi
    subst hi
    have hfresh : toString c0.counter ∉ c0.ids := by
      intro h
      obtain ⟨m, hm, e⟩ := hids _ h
      have := toString_nat_inj e
      omega
    obtain ⟨e1, -, -, c2, e4, e5⟩ := (C18_add_effect hr).1 hfresh
    refine ⟨c1, hr, by rw [hn1, hcn], hcnt, e1, ?_, ?_⟩
    · intro j hj
      simp only [Constraints.ids, hit, dictSetCons_ids] at hj
      rw [hcnt]
      split_ifs at hj
      · obtain ⟨m, hm, e⟩ := hids j hj; exact ⟨m, by omega, e⟩
      · rcases List.mem_append.mp hj with hj | hj
        · obtain ⟨m, hm, e⟩ := hids j hj; exact ⟨m, by omega, e⟩
        · rw [List.mem_singleton.mp hj, hk]; exact ⟨c0.counter, by omega, rfl⟩
    · intro h
      refine ⟨c2, e4, ?_, by rw [e5, h]⟩
      obtain ⟨-, rfl⟩ := remove_ok e4
      rw [← hcn, ← hn1]
  have hloop : ∀ (l : List ℕ) (B : ActionSet K), (∀ n ∈ l, n ≤ ns.length) → B.cons.names = A0.names →
      (∀ i ∈ B.cons.ids, ∃ k < B.cons.counter, i = toString k) →
      ∃ B', addUpTo ns l B = .ok B' ∧ B'.cons.items.length = B.cons.items.length + l.length := by
    intro l
    induction l with
    | nil => intro B _ _ _; exact ⟨B, rfl, rfl⟩
    | cons n l ih =>
      intro B hl hB hids
      have hnl : (n : Int) ≤ A0.names.length := by
        have := hl n (by simp); exact_mod_cast this.trans hsub
      obtain ⟨c1, g1, g2, g3, g4, g5, -⟩ := hadd B.cons 0 n hB hids le_rfl (by omega) hnl
      obtain ⟨B', h1, h2⟩ := ih { B with cons := c1 } (fun m hm => hl m (by simp [hm])) g2 g5
      refine ⟨B', ?_, ?_⟩
      · unfold addUpTo ActionSet.addConstraint
        rw [List.foldlM_cons, g1]
        exact h1
      · rw [h2]
        dsimp only
        rw [g4, List.length_cons]; omega
  have hc0 : A0.cons.items = [] := by rw [hc]; rfl
  have hcn : A0.cons.names = A0.names := by rw [hc, hn]; rfl
  refine ⟨by rw [hc0]; rfl, ?_⟩
  have hids0 : ∀ i ∈ A0.cons.ids, ∃ k < A0.cons.counter, i = toString k := by
    intro i hi; unfold Constraints.ids at hi; rw [hc0] at hi; simp at hi
  have h1n : (1 : Int) ≤ A0.names.length := by
    have := h2.trans hsub; omega
  obtain ⟨c1, g1, g2, g3, g4, g5, g6⟩ := hadd A0.cons 1 1 hcn hids0 (by norm_num) le_rfl h1n
  obtain ⟨c2, k1, k2, k3⟩ := g6 hc0
  obtain ⟨A3, h3, h4⟩ := hloop (List.range ns.length)
    { A0 with cons := c2, extra := [("check_flag", .bool c), ("print_flag", .bool p)] }
    (fun n hn => (List.mem_range.mp hn).le) k2 (by
      intro i hi; unfold Constraints.ids at hi; dsimp only at hi; rw [k3] at hi; simp at hi)
  refine ⟨{ A0 with cons := c1, extra := [("check_flag", .bool c), ("print_flag", .bool p)] }, toString A0.cons.counter,
    { A0 with cons := c2, extra := [("check_flag", .bool c), ("print_flag", .bool p)] }, A3, ?_, ?_, ?_, ?_, h3, ?_⟩
  · unfold ActionSet.addConstraint
    dsimp only
    rw [g1]; rfl
  · dsimp only; rw [g4, hc0]; rfl
  · unfold ActionSet.removeConstraint
    dsimp only
    rw [k1]; rfl
  · dsimp only; rw [k3]; rfl
  · rw [h4, List.length_range]; dsimp only; rw [k3]; simp

/-! ## tests/test_bounds.py -/

/-- **C96**, `test_absolute_bound`: without data and for an integer variable, absolute bounds are rounded outwards; integral bounds
(as in the test) are stored verbatim. -/
theorem C96_absolute_bound {l u : K} (hlu : l ≤ u) :
    ∃ b, mkBound (.str "absolute") (.flt l) (.flt u) none (some .int) = .ok b ∧ b.btype = .absolute ∧
      b.lb = ((⌊l⌋ : ℤ) : K) ∧ b.ub = ((⌈u⌉ : ℤ) : K) ∧
      ((∃ z : ℤ, (z : K) = l) → b.lb = l) ∧ ((∃ z : ℤ, (z : K) = u) → b.ub = u) := by
  have hb : mkBound (.str "absolute") (.flt l) (.flt u) none (some .int) =
      .ok { btype := .absolute, lb := (⌊l⌋ : K), ub := (⌈u⌉ : K), qlb := 0, qub := 100 } := by
    simp only [mkBound, boundVType, parseBType, boundPair, absNum, boundNum, ok_bind, decide_eq_true hlu, pyAssert_true]
    rfl
  refine ⟨_, hb, rfl, rfl, rfl, ?_, ?_⟩
  · rintro ⟨z, rfl⟩; dsimp only; rw [Int.floor_intCast]
  · rintro ⟨z, rfl⟩; dsimp only; rw [Int.ceil_intCast]

/-- **C96**, the two functions called `test_absolute_bound_with_values`, and `test_percentile_bound`: for data that are not all integral,
given absolute bounds are stored verbatim; missing ones are the minimum and the maximum of the data; percentile bounds are the
percentiles of the data. -/
theorem C96_bounds_with_values {values : List K} (hne : values ≠ []) (hv : ∃ v ∈ values, ∀ z : ℤ, (z : K) ≠ v) {l u : K} (hlu : l ≤ u) :
    (∃ b, mkBound (.str "absolute") (.flt l) (.flt u) (some values) none = .ok b ∧ b.btype = .absolute ∧ b.lb = l ∧ b.ub = u) ∧
    (∃ b, mkBound (.str "absolute") .none .none (some values) none = .ok b ∧ b.btype = .absolute ∧
      IsLeast' values b.lb ∧ IsGreatest' values b.ub) ∧
    (0 ≤ l → u ≤ 100 → ∃ b, mkBound (.str "percentile") (.flt l) (.flt u) (some values) none = .ok b ∧ b.btype = .percentile ∧
      b.lb = npPercentile values l ∧ b.ub = npPercentile values u) := by
  have ht : determineType values = .float := by
    unfold determineType
    rw [if_neg]
    rw [List.all_eq_true]
    intro h
    obtain ⟨v, hv, hz⟩ := hv
    have := h v hv
    unfold isIntegral at this
    rw [decide_eq_true_eq] at this
    exact hz _ this
  have hm : npMin values ≤ npMax values := npMin_le (npMax_mem hne)
  refine ⟨⟨{ btype := .absolute, lb := l, ub := u, qlb := 0, qub := 100 }, ?_, rfl, rfl, rfl⟩,
    ⟨{ btype := .absolute, lb := npMin values, ub := npMax values, qlb := 0, qub := 100 }, ?_, rfl,
      ⟨npMin_mem hne, fun v hv => npMin_le hv⟩, ⟨npMax_mem hne, fun v hv => le_npMax hv⟩⟩,
    fun h0 h100 => ⟨{ btype := .percentile, lb := npPercentile values l, ub := npPercentile values u, qlb := l, qub := u }, ?_, rfl, rfl, rfl⟩⟩
  · simp only [mkBound, boundVType, parseBType, boundPair, absNum, boundNum, ok_bind, decide_eq_true hlu, pyAssert_true, ht]
    rfl
  · simp only [mkBound, boundVType, parseBType, boundPair, absNum, ok_bind, decide_eq_true hm, pyAssert_true, ht]
    rfl
  · have h1 : npPercentile values l ≤ npPercentile values u := npPercentile_mono hne h0 hlu h100
    simp only [mkBound, boundVType, parseBType, boundPair, boundNum, ok_bind,
      decide_eq_true (⟨h0, hlu.trans h100⟩ : 0 ≤ l ∧ l ≤ 100),
      decide_eq_true (⟨h0.trans hlu, h100⟩ : 0 ≤ u ∧ u ≤ 100), decide_eq_true h1, pyAssert_true, ht]
    rfl

/-! ## tests/test_builder.py -/

/-- **C96**, `test_rb_fit_without_initialization`: `fit` on a new builder without a point fails an assertion. -/
theorem C96_fit_without_point {be : Backend} {ct : CostType} {w : List K} {t : K} {b : Builder K}
    (h : mkBuilder be ct A w t = .ok b) : b.fit o = .error .assertion := by
  have : b.mip = none := by
    unfold mkBuilder at h
    obtain ⟨-, -, h⟩ := bind_ok_iff.mp h
    dsimp only at h
    by_cases hk : A.alignmentKnown = true
    · rw [if_pos hk] at h; cases h; rfl
    · rw [if_neg hk] at h
      obtain ⟨A', -, h⟩ := bind_ok_iff.mp h
      cases h; rfl
  unfold Builder.fit
  rw [this]

/-- **C96**, `test_rb_fit`: the cost that `fit` reports is infinite, or a positive number. -/
theorem C96_fit_cost (hso : SetOrderOk ext) (hlog : LogOk ext) (ho : o.Exact) {b0 b1 b b' : Builder K} {i : Info K} {x : List K}
    (hr : b0.Reachable ext)
    (hp : b0.costType = .loc → ∀ e ∈ b0.aset.elems, ∀ v p, e.percentile ext v = .ok p → p < 1)
    (hx : b0.setX ext x = (b1, .ok ())) (ha : b1.After o b) (hf : b.fit o = .ok (b', i)) :
    i.cost = .inf ∨ ∃ c, i.cost = .fin c ∧ 0 < c := by
  cases hi : i.feasible with
  | false =>
    left
    obtain ⟨feats, h1, h2, h3⟩ := Posed.setX hso hr.ok hx
    obtain ⟨Q, -, hq⟩ := h3.after h2 ho.1 ha
    obtain ⟨-, -, rfl⟩ := fit_ok hf
    rcases hq.solved h2 ho.1 with ⟨-, he, -⟩ | ⟨σ, κ, -, -, hk, -, hrep, -⟩
    · rw [he]; rfl
    · rw [hrep.feasible] at hi; cases hi
  | true =>
    right
    obtain ⟨a, cs, c, h1, h2, h3, h4, h5, h6, h7⟩ := C28_costs hso hlog ho hr hp hx ha hf hi
    obtain ⟨a', h1', hrec⟩ := C22_actionable hso ho.1 hr hx ha hf hi
    rw [h1] at h1'; cases h1'
    refine ⟨c, h3, ?_⟩
    have hnn : ∀ v ∈ cs, 0 ≤ v := by
      intro v hv
      obtain ⟨j, hj⟩ := List.mem_iff_getElem?.mp hv
      have hjl : j < a.length := by
        rw [hrec.permitted.1, ← h4.1]; exact (List.getElem?_eq_some_iff.mp hj).1
      obtain ⟨g1, g2⟩ := h5 j _ v (List.getElem?_eq_getElem hjl) hj
      by_cases h0 : a[j] = 0
      · rw [g1 h0]
      · exact (g2 h0).le
    have hpos : ∃ v ∈ cs, 0 < v := by
      have h1 : 1 ≤ numChanged a := le_trans (le_max_right _ _) hrec.min
      unfold numChanged at h1
      rw [Nat.one_le_iff_ne_zero, ← Nat.pos_iff_ne_zero, List.countP_pos_iff] at h1
      obtain ⟨aj, ham, h0⟩ := h1
      rw [decide_eq_true_eq] at h0
      obtain ⟨j, hj⟩ := List.mem_iff_getElem?.mp ham
      have hjl : j < cs.length := by
        rw [h4.1, ← hrec.permitted.1]; exact (List.getElem?_eq_some_iff.mp hj).1
      exact ⟨cs[j], List.getElem_mem hjl, (h5 j aj _ hj (List.getElem?_eq_getElem hjl)).2 h0⟩
    obtain ⟨v, hv, hv0⟩ := hpos
    by_cases hct : b0.costType = .max
    · exact lt_of_lt_of_le hv0 ((h6 hct).2 v hv)
    · rw [h7 hct]
      exact lt_of_lt_of_le hv0 (List.single_le_sum hnn v hv)

/-- The loop of `test_empty_fit`: `action_set[n].step_direction = -1 * d` for the given pairs. -/
def setDirections (A : ActionSet K) (l : List (String × K)) : ActionSet K :=
  l.foldl (fun A p => (A.setElemAttr p.1 "step_direction" (.flt (-1 * p.2))).1) A

theorem setDirections_spec {w : List K} : ∀ (l : List (String × K)) (A : ActionSet K), A.Reachable ext →
    (∀ p ∈ l, ∃ (j : ℕ) (c : K), A.names[j]? = some p.1 ∧ w[j]? = some c ∧ p.2 = ((sgn c : Int) : K)) →
    (∀ (j : ℕ) (e : Elem K) (c : K), A.elems[j]? = some e → w[j]? = some c → e.flip = some (sgn c) ∧
      (e.stepDir = - sgn c ∨ ∃ p ∈ l, A.names[j]? = some p.1)) →
    (setDirections A l).Reachable ext ∧ (setDirections A l).names = A.names ∧ (setDirections A l).cons = A.cons ∧
    (setDirections A l).yDesired = A.yDesired ∧
    ∀ (j : ℕ) (e : Elem K) (c : K), (setDirections A l).elems[j]? = some e → w[j]? = some c →
      e.flip = some (sgn c) ∧ e.stepDir = - sgn c := by
  intro l
  induction l with
  | nil =>
    intro A hA _ h
    refine ⟨hA, rfl, rfl, rfl, ?_⟩
    intro j e c he hc
    obtain ⟨h1, h2 | ⟨p, hp, -⟩⟩ := h j e c he hc
    · exact ⟨h1, h2⟩
    · simp at hp
  | cons p l ih =>
    intro A hA hl h
    obtain ⟨j, c, hj, hc, hp⟩ := hl p (by simp)
    obtain ⟨e, he, hel⟩ := elem?_at hA hj
    have hidx : A.names.idxOf p.1 = j := by
      obtain ⟨hlt, hpe⟩ := List.getElem?_eq_some_iff.mp hj
      rw [← hpe]; exact hA.wf.distinct.idxOf_getElem j hlt
    have hsg : sgn (-1 * ((sgn c : Int) : K)) = - sgn c := by
      rcases lt_trichotomy c 0 with h | h | h
      · simp [sgn, h, not_lt.mpr h.le]
      · simp [sgn, h]
      · simp [sgn, h]
    have hset : A.setElemAttr p.1 "step_direction" (.flt (-1 * p.2)) =
        ({ A with elems := A.elems.set j { e with stepDir := - sgn c } }, .ok ()) := by
      unfold ActionSet.setElemAttr
      rw [hel]
      have : e.setAttr "step_direction" (.flt (-1 * p.2)) = .ok { e with stepDir := - sgn c } := by
        rw [hp, ← hsg]; rfl
      dsimp only
      rw [this, hidx]
    have hstep : setDirections A (p :: l) = setDirections { A with elems := A.elems.set j { e with stepDir := - sgn c } } l := by
      unfold setDirections
      rw [List.foldl_cons, hset]
    have hA' : ({ A with elems := A.elems.set j { e with stepDir := - sgn c } } : ActionSet K).Reachable ext := by
      have := ActionSet.Reachable.setElem p.1 "step_direction" (.flt (-1 * p.2)) hA
      rwa [hset] at this
    rw [hstep]
    refine ih _ hA' (fun q hq => hl q (by simp [hq])) ?_
    intro k e' c' he' hc'
    dsimp only at he' ⊢
    by_cases hkj : k = j
    · subst hkj
      rw [List.getElem?_set_self (List.getElem?_eq_some_iff.mp he).1] at he'
      cases he'
      rw [hc] at hc'; cases hc'
      exact ⟨(h k e c he hc).1, Or.inl rfl⟩
    · rw [List.getElem?_set_ne (Ne.symm hkj)] at he'
      obtain ⟨h1, h2⟩ := h k e' c' he' hc'
      refine ⟨h1, h2.imp_right ?_⟩
      rintro ⟨q, hq, hqn⟩
      rcases List.mem_cons.mp hq with rfl | hq
      · exfalso
        apply hkj
        obtain ⟨hlt, hpe⟩ := List.getElem?_eq_some_iff.mp hqn
        have h3 := hA.wf.distinct.idxOf_getElem k hlt
        rw [hpe] at h3
        exact h3.symm.trans hidx
      · exact ⟨q, hq, hqn⟩

/-- **C96**, `test_empty_fit`: an action set with desired outcome 1 and no subset limits is aligned with the classifier and then every step
direction is set against the sign of the coefficient.  A builder for this classifier that uses this set and the cost type `max`, with
whatever history, accepts every point of the right length at which the density estimates exist, and every sound solver
leads to an infeasible answer at infinite cost. -/
theorem C96_empty_fit (hso : SetOrderOk ext) (hA : A.Reachable ext) {w : List K} {A1 : ActionSet K} (hy : A.yDesired = 1)
    (hc : A.cons.items = []) (h1 : A.setAlignment w = .ok A1) {b0 : Builder K} (hr : b0.Reachable ext)
    (hw : b0.coefs = w) (hct : b0.costType = .max)
    (hset : b0.aset = setDirections A1 (A1.names.zip (w.map fun c => ((sgn c : Int) : K))))
    {x : List K} (hx : x.length = A.names.length) :
    ∃ b1, b0.setX ext x = (b1, .ok ()) ∧ ∀ o : Oracle K, o.Sound → ∃ b' i, b1.fit o = .ok (b', i) ∧
      i.cost = .inf ∧ i.feasible = false := by
  have hA1 : A1.Reachable ext := .align hA h1
  obtain ⟨hwl, hA1e⟩ := setAlignment_ok h1
  have hn1 : A1.names = A.names := by rw [hA1e]
  obtain ⟨A1', h1', -, hl1, hfl, -⟩ := (C12_alignment hA w).1 hwl
  rw [h1] at h1'; cases h1'
  obtain ⟨hR, hRn, hRc, hRy, hRe⟩ := setDirections_spec (w := w) (A1.names.zip (w.map fun c => ((sgn c : Int) : K))) A1 hA1 (by
    intro p hp
    obtain ⟨j, hj⟩ := List.mem_iff_getElem?.mp hp
    rw [List.getElem?_zip_eq_some] at hj
    obtain ⟨g1, g2⟩ := hj
    rw [List.getElem?_map] at g2
    obtain ⟨c, hc, he⟩ := Option.map_eq_some_iff.mp g2
    exact ⟨j, c, g1, hc, he.symm⟩) (by
    intro j e c he hc
    have hj : j < A.elems.length := by rw [← hl1]; exact (List.getElem?_eq_some_iff.mp he).1
    have := hfl j _ c (List.getElem?_eq_getElem hj) hc
    rw [he] at this
    have hee := Option.some.inj this
    refine ⟨by rw [hee, hy]; simp, Or.inr ?_⟩
    have hjn : j < A1.names.length := by rw [hn1, ← hA.wf.length]; exact hj
    refine ⟨(A1.names[j], ((sgn c : Int) : K)), ?_, List.getElem?_eq_getElem hjn⟩
    rw [List.mem_iff_getElem?]
    refine ⟨j, ?_⟩
    rw [List.getElem?_zip_eq_some]
    exact ⟨List.getElem?_eq_getElem hjn, by rw [List.getElem?_map, hc]; rfl⟩)
  rw [← hset] at hR hRn hRc hRy hRe
  have hcons : b0.aset.cons.items = [] := by rw [hRc, hA1e]; exact hc
  have hincompat : ∀ e ∈ b0.aset.elems, e.compatTruthy = false := by
    intro e he
    obtain ⟨j, hj⟩ := List.mem_iff_getElem?.mp he
    have hjl : j < w.length := by
      rw [hwl, ← hn1, ← hRn, ← hR.wf.length]; exact (List.getElem?_eq_some_iff.mp hj).1
    obtain ⟨g1, g2⟩ := hRe j e _ hj (List.getElem?_eq_getElem hjl)
    unfold Elem.compatTruthy Elem.compatible
    rw [g1]
    dsimp only
    cases e.actionable with
    | false => rfl
    | true =>
      rw [g2]
      rcases lt_trichotomy (w[j]) 0 with h | h | h
      · have : sgn w[j] = -1 := by simp [sgn, h, not_lt.mpr h.le]
        rw [this]; rfl
      · have : sgn w[j] = 0 := by simp [sgn, h]
        rw [this]; rfl
      · have : sgn w[j] = 1 := by simp [sgn, h]
        rw [this]; rfl
  have hgrid : b0.aset.feasibleGrid ext x true true = .ok [] := by
    unfold ActionSet.feasibleGrid
    rw [decide_eq_true (by rw [hx, hRn, hn1]), show pyAssert true = .ok () from rfl, ok_bind]
    have : ((b0.aset.cols x).filter fun p => !true || p.2.1.compatTruthy) = [] := by
      rw [List.filter_eq_nil_iff]
      rintro ⟨n, e, xj⟩ hp
      have : e ∈ b0.aset.elems := by
        unfold ActionSet.cols at hp
        exact (List.of_mem_zip (List.of_mem_zip hp).2).1
      simp [hincompat e this]
    dsimp only
    rw [this, hcons]
    rfl
  obtain ⟨h36, -⟩ := C36_empty_partial hso hr hcons hgrid (by simp)
  obtain ⟨hok, hfit⟩ := h36 hct
  refine ⟨(b0.setX ext x).1, Prod.ext rfl hok, ?_⟩
  intro o ho
  obtain ⟨feats, q1, q2, q3⟩ := Posed.setX (b1 := (b0.setX ext x).1) hso hr.ok (Prod.ext rfl hok)
  obtain ⟨m, hm, -⟩ := q3.mip
  have hf : ((b0.setX ext x).1).fit o = .ok (((b0.setX ext x).1).solve o, (((b0.setX ext x).1).solve o).solutionInfo) := by
    unfold Builder.fit
    rw [hm]
  obtain ⟨r1, r2⟩ := hfit o ho _ _ _ _ (Prod.ext rfl hok) .refl hf
  exact ⟨_, _, hf, r2, r1⟩

/-! ## tests/test_flipset.py -/

/-- Number of features changed by both action vectors. -/
def numBoth (a a' : List K) : ℕ := (List.zip a a').countP fun p => decide (p.1 ≠ 0 ∧ p.2 ≠ 0)

theorem numBoth_cons (v v' : K) (a a' : List K) :
    numBoth (v :: a) (v' :: a') = numBoth a a' + if v ≠ 0 ∧ v' ≠ 0 then 1 else 0 := by
  unfold numBoth; rw [List.zip_cons_cons, List.countP_cons]; simp only [decide_eq_true_eq]

theorem numChanged_cons (v : K) (a : List K) : numChanged (v :: a) = numChanged a + if v ≠ 0 then 1 else 0 := by
  unfold numChanged; rw [List.countP_cons]; simp only [decide_eq_true_eq]

theorem numBoth_le {a a' : List K} : numBoth a a' ≤ numChanged a ∧ numBoth a a' ≤ numChanged a' := by
  induction a generalizing a' with
  | nil => simp [numBoth]
  | cons v a ih =>
    cases a' with
    | nil => simp [numBoth]
    | cons v' a' =>
      obtain ⟨h1, h2⟩ := ih (a' := a')
      rw [numBoth_cons, numChanged_cons, numChanged_cons]
      by_cases hv : v = 0 <;> by_cases hv' : v' = 0 <;> simp [hv, hv'] <;> omega

theorem numBoth_lt {a a' : List K} (hl : a.length = a'.length) (h : ¬ SameFeatures a a') :
    numBoth a a' < max (numChanged a) (numChanged a') := by
  by_contra hc
  rw [not_lt] at hc
  apply h
  clear h
  have h1 : numBoth a a' = numChanged a := le_antisymm numBoth_le.1 ((le_max_left _ _).trans hc)
  have h2 : numBoth a a' = numChanged a' := le_antisymm numBoth_le.2 ((le_max_right _ _).trans hc)
  clear hc
  induction a generalizing a' with
  | nil => rw [List.length_eq_zero_iff.mp hl.symm]; intro j; rfl
  | cons v a ih =>
    cases a' with
    | nil => simp at hl
    | cons v' a' =>
      have hle := numBoth_le (a := a) (a' := a')
      rw [numBoth_cons, numChanged_cons] at h1 h2
      have hh : (v = 0 ↔ v' = 0) ∧ numBoth a a' = numChanged a ∧ numBoth a a' = numChanged a' := by
        by_cases hv : v = 0 <;> by_cases hv' : v' = 0 <;> simp [hv, hv'] at h1 h2 ⊢ <;> omega
      intro j
      cases j with
      | zero => exact hh.1
      | succ j => exact ih (by simpa using hl) hh.2.1 hh.2.2 j

/-- **C96**, `test_flipset_distinct_subsets` (on the action vectors themselves; the test truncates them to integers first): any two items of a
newly populated flipset share fewer features than the larger of them changes. -/
theorem C96_distinct_subsets (hso : SetOrderOk ext) (ho : o.Sound) (hA : A.Reachable ext) {be : Backend} {ct : CostType} {x w : List K} {t : K}
    (hc : be = .pymip ∨ A.cons.items = []) {fuel : ℕ} {total : Option ℕ} {fs : Flipset K}
    (hp : (mkFlipset be A x w t none).populate ext o fuel total .distinctSubsets ct = some (fs, .ok ())) :
    fs.items.Pairwise (Info.Related fun a a' => numBoth a a' < max (numChanged a) (numChanged a')) := by
  obtain ⟨b0, b1, b, hb, hx, hl⟩ := first_items hp
  have hr : b0.Reachable ext := .mk hA hb
  obtain ⟨f1, -, -, -, f5, -⟩ := mkBuilder_offers hA hb
  have h37 := C37_distinct hso ho hr hx (by rw [f5, f1.cons]; exact hc) .refl hl
  have h22 := C22_items_actionable hso ho hr hx .refl hl
  refine h37.imp_of_mem ?_
  rintro i i' hi hi' ⟨a, a', h1, h2, h3⟩
  refine ⟨a, a', h1, h2, numBoth_lt ?_ h3⟩
  obtain ⟨-, c, hc1, hc2⟩ := h22 i hi
  obtain ⟨-, c', hc1', hc2'⟩ := h22 i' hi'
  rw [h1] at hc1; cases hc1
  rw [h2] at hc1'; cases hc1'
  rw [hc2.permitted.1, hc2'.permitted.1]

theorem dot_disjoint {a a' : List K} (h : DisjointFeatures a a') : dot a a' = 0 := by
  induction a generalizing a' with
  | nil => simp [dot]
  | cons v a ih =>
    cases a' with
    | nil => simp [dot]
    | cons v' a' =>
      have h0 := h 0
      simp only [List.getD_cons_zero] at h0
      have h1 : dot a a' = 0 := ih fun j => by simpa using h (j + 1)
      unfold dot at h1 ⊢
      rw [List.zipWith_cons_cons, List.sum_cons, h1]
      rcases h0 with h0 | h0 <;> rw [h0] <;> simp

/-- **C96**, `test_flipset_mutually_exclusive`: the action vectors of any two items of a newly populated flipset are orthogonal. -/
theorem C96_mutually_exclusive (hso : SetOrderOk ext) (ho : o.Sound) (hA : A.Reachable ext) {be : Backend} {ct : CostType} {x w : List K} {t : K}
    {fuel : ℕ} {total : Option ℕ} {fs : Flipset K}
    (hp : (mkFlipset be A x w t none).populate ext o fuel total .mutuallyExclusive ct = some (fs, .ok ())) :
    fs.items.Pairwise (Info.Related fun a a' => dot a a' = 0) := by
  obtain ⟨b0, b1, b, hb, hx, hl⟩ := first_items hp
  refine (C40_disjoint hso ho (.mk hA hb) hx .refl hl).imp ?_
  rintro i i' ⟨a, a', h1, h2, h3⟩
  exact ⟨a, a', h1, h2, dot_disjoint h3⟩

/-! ## tests/test_auditor.py -/

/-- **C96**, `test_auditor`: the audit of `n` people has `n` rows. -/
theorem C96_auditor {ι : Type} {be : Backend} {w : List K} {t : K} {ad ad' : Auditor K} {X : List (ι × List K)} {y : Int}
    {T : List (ι × AuditRow K)} (hA : A.Reachable ext) (h : mkAuditor be A w t = .ok ad) (hT : ad.audit ext o X y = (ad', .ok T)) :
    T.length = X.length := by
  have := congrArg List.length (C44_rows (Auditor.Reachable.mk hA h) hT).1
  rwa [List.length_map, List.length_map] at this

/-! ## Examples -/

/-- The data, the classifier and the steps of `test_align`, `test_subset_constraints` and `test_empty_fit` on a small data frame with a
binary and an integer column. -/
theorem C96_example : ∃ A : ActionSet ℚ,
    newActionSet (.frame [.str "a", .str "b", .str "c"] [[0, 1, 3], [1, 0, 5]]) .none (.int 1) {} = .ok A ∧
    A.names = ["a", "b", "c"] ∧
    (∃ A3, addUpTo ["a", "b"] (List.range 2) A = .ok A3 ∧ A3.cons.items.map (fun k => (k.id, k.ub)) = [("0", 0), ("1", 1)]) ∧
    (∃ A1, A.setAlignment [2, -1, 0] = .ok A1 ∧ A1.elems.map (·.flip) = [some 1, some (-1), some 0] ∧
      (setDirections A1 (A1.names.zip ([(2 : ℚ), -1, 0].map fun c => ((sgn c : Int) : ℚ)))).elems.map (·.stepDir) = [-1, 1, 0] ∧
      True) := by
  decide +kernel

/-- Two overlapping combinations, as `test_flipset_distinct_subsets` counts them. -/
example : numBoth [(1 : ℚ), 2, 0] [3, 0, 1] = 1 ∧ numChanged [(1 : ℚ), 2, 0] = 2 ∧ numBoth [(1 : ℚ), 2, 0] [3, 1, 0] = 2 := by
  decide +kernel

end Recourse
