import Verif.Props.CircumstancesMax
import Verif.Model.Session

/-!
# C120: equal scores, equal answers, whatever the solver
-/

set_option linter.unusedSectionVars false

namespace Recourse

variable {K : Type} [Field K] [LinearOrder K] [IsStrictOrderedRing K] [FloorRing K]

variable {ox : Option (List K)}

variable {ext : Ext K} {o : Oracle K} {b b0 b1 b2 b3 d0 d1 d2 d3 : Builder K} {x x' : List K} {i i' : Info K}

/-- The same builder, but for the stored point. -/
def Builder.moved (ox : Option (List K)) (b : Builder K) : Builder K := { b with x := ox }

theorem fit_moved (o : Oracle K) (b : Builder K) :
    (b.moved ox).fit o = (b.fit o).map fun r => (r.1.moved ox, r.2) := by
  unfold Builder.fit Builder.moved
  dsimp only
  cases hm : b.mip with
  | none => rfl
  | some m =>
    dsimp only [Except.map]
    unfold Builder.solve
    dsimp only
    rw [hm]
    rfl

theorem popLoop_moved (o : Oracle K) (et : EnumType) : ∀ (fuel : ℕ) (total : Option ℕ) (b : Builder K) (acc : List (Info K)),
    (b.moved ox).popLoop o et fuel total acc = (b.popLoop o et fuel total acc).map fun r => (r.1.moved ox, r.2) := by
  intro fuel
  induction fuel with
  | zero =>
    intro total b acc
    cases total with
    | none => rfl
    | some n => cases n <;> rfl
  | succ fuel ih =>
    intro total b acc
    have hs : (b.moved ox).solve o = (b.solve o).moved ox := by
      unfold Builder.solve Builder.moved
      dsimp only
      cases hm : b.mip
      · simp only [hm]
      · rfl
    have hr : ((b.solve o).moved ox).reported = (b.solve o).reported := rfl
    have hrem : ∀ σ, ((b.solve o).moved ox).removeSolution et σ = ((b.solve o).removeSolution et σ).moved ox := by
      intro σ; cases et <;> rfl
    have step : ∀ n : Option ℕ, (match ((b.moved ox).solve o).reported with
        | none => some ((b.moved ox).solve o, acc)
        | some σ => Builder.popLoop o et fuel n (((b.moved ox).solve o).removeSolution et σ)
            (acc ++ [((b.moved ox).solve o).solutionInfo])) =
        (match (b.solve o).reported with
        | none => some (b.solve o, acc)
        | some σ => Builder.popLoop o et fuel n ((b.solve o).removeSolution et σ)
            (acc ++ [(b.solve o).solutionInfo])).map (fun r : Builder K × List (Info K) => (r.1.moved ox, r.2)) := by
      intro n
      rw [hs, hr]
      cases (b.solve o).reported with
      | none => rfl
      | some σ =>
        dsimp only
        rw [hrem]
        exact ih _ _ _
    cases total with
    | none => exact step none
    | some n =>
      cases n with
      | zero => rfl
      | succ n => exact step (some n)

theorem populate_moved (o : Oracle K) (et : EnumType) (fuel : ℕ) (total : Option ℕ) (b : Builder K) :
    (b.moved ox).populate o et fuel total = (b.populate o et fuel total).map (Option.map fun r => (r.1.moved ox, r.2)) := by
  unfold Builder.populate
  have : (b.moved ox).mip = b.mip := rfl
  rw [this]
  by_cases hm : b.mip.isNone = true
  · rw [if_pos hm, if_pos hm]; rfl
  · rw [if_neg hm, if_neg hm, popLoop_moved]
    cases pyAssert (match total with | some n => decide (1 ≤ n) | none => true) with
    | error e => rfl
    | ok u => rfl

/-- Assigning the second point leaves the builder as assigning the first, but for the stored point. -/
theorem setX_moved (hr : b0.Reachable ext) (hs : SameActionable b0.aset x x') (hscore : dot b0.coefs x' = dot b0.coefs x)
    (hx : b0.setX ext x = (b1, .ok ())) : b0.setX ext x' = (b1.moved (some x'), .ok ()) := by
  obtain ⟨feats, m, h1, h2, h3, rfl⟩ := setX_ok hx
  have e1 := buildInfo_same hr.ok hs h2
  have e2 : b0.buildArgs x' feats = b0.buildArgs x feats := by
    unfold Builder.buildArgs Builder.score; rw [hscore]
  unfold Builder.setX
  rw [if_neg (by rw [hs.1]; exact fun h => h h1)]
  have e3 : ({ b0 with x := some x' } : Builder K).buildInfo ext x' = b0.buildInfo ext x' := rfl
  dsimp only
  rw [e3, e1]
  dsimp only
  have e4 : ({ b0 with x := some x', aset := b0.aset.touch ext true } : Builder K).buildArgs x' feats
      = b0.buildArgs x' feats := rfl
  rw [e4, e2, h3]
  rfl

theorem setX_from (o : Option (List K)) (b : Builder K) (y : List K) :
    ∃ ox', (b.moved o).setX ext y = ((b.setX ext y).1.moved ox', (b.setX ext y).2) := by
  unfold Builder.setX
  by_cases h : y.length ≠ b.coefs.length
  · rw [if_pos h, if_pos (show y.length ≠ (b.moved o).coefs.length from h)]
    exact ⟨o, rfl⟩
  · rw [if_neg h, if_neg (show ¬ y.length ≠ (b.moved o).coefs.length from h)]
    refine ⟨some y, ?_⟩
    have e1 : ({ b.moved o with x := some y } : Builder K) = { b with x := some y } := rfl
    rw [e1]
    dsimp only
    cases ({ b with x := some y } : Builder K).buildInfo ext y with
    | error er => rfl
    | ok feats =>
      dsimp only
      cases buildMip b.backend (({ b with x := some y, aset := b.aset.touch ext true } : Builder K).buildArgs y feats) <;> rfl

/-- Every call on the moved builder replies as on the other, and leaves builders that again differ in the stored point only. -/
theorem call_moved (o : Option (List K)) (b : Builder K) (c : BuilderCall K) :
    ∃ ox', (b.moved o).call ext c = (b.call ext c).map fun r => (r.1.moved ox', r.2) := by
  cases c with
  | setX y =>
    obtain ⟨ox', h⟩ := setX_from (ext := ext) o b y
    refine ⟨ox', ?_⟩
    unfold Builder.call
    dsimp only
    rw [h]; rfl
  | fit s =>
    refine ⟨o, ?_⟩
    unfold Builder.call
    dsimp only
    rw [fit_moved]
    cases b.fit s <;> rfl
  | populate s et fuel total =>
    refine ⟨o, ?_⟩
    unfold Builder.call
    dsimp only
    rw [populate_moved]
    cases b.populate s et fuel total with
    | error er => rfl
    | ok r => cases r <;> rfl
  | limits lo hi =>
    refine ⟨o, ?_⟩
    unfold Builder.call
    dsimp only
    have e : (b.moved o).setItemLimits lo hi = ((b.setItemLimits lo hi).1.moved o, (b.setItemLimits lo hi).2) := by
      cases lo with
      | none => rfl
      | some lo =>
        cases hi with
        | none => rfl
        | some hi =>
          unfold Builder.setItemLimits Builder.moved
          dsimp only
          cases hm : b.mip with
          | none => dsimp only; split_ifs <;> first | rfl | (simp only [hm]; done) | (simp only [hm]; rfl)
          | some m => dsimp only; split_ifs <;> first | rfl | (simp only [hm]; done) | (simp only [hm]; rfl)
    rw [e]; rfl
  | minItems k =>
    refine ⟨o, ?_⟩
    unfold Builder.call Builder.setMinItems
    cases k with
    | none => rfl
    | some k => dsimp only; split_ifs <;> rfl
  | maxItems k =>
    refine ⟨o, ?_⟩
    unfold Builder.call Builder.setMaxItems
    cases k with
    | none => rfl
    | some k => dsimp only; split_ifs <;> rfl

/-- What a program that makes the calls `cs` on a builder sees.  `none`: an enumeration does not come to an end. -/
def Builder.replies (ext : Ext K) : Builder K → List (BuilderCall K) → Option (List (Reply K))
  | _, [] => some []
  | b, c :: cs =>
    match b.call ext c with
    | none => none
    | some (b', r) => (Builder.replies ext b' cs).map (r :: ·)

theorem replies_moved : ∀ (cs : List (BuilderCall K)) (o : Option (List K)) (b : Builder K),
    (b.moved o).replies ext cs = b.replies ext cs
  | [], _, _ => rfl
  | c :: cs, o, b => by
    obtain ⟨ox', h⟩ := call_moved (ext := ext) o b c
    unfold Builder.replies
    rw [h]
    cases b.call ext c with
    | none => rfl
    | some r =>
      obtain ⟨b', r⟩ := r
      dsimp only [Option.map]
      rw [replies_moved cs ox' b']

/-- **C120.**  Two points agree at all actionable features and have equal scores.  If a builder accepts the first it accepts the second,
and from then on every sequence of calls (fits, enumerations, item limits, assignments of further points), with any solvers, of which
nothing is assumed (they may stop early or fail, as long as they answer equal programs equally at equal times), gets the same
replies: the same answers, item for item, and the same exceptions. -/
theorem C120_alike (hr : b0.Reachable ext) (hs : SameActionable b0.aset x x') (hscore : dot b0.coefs x' = dot b0.coefs x)
    (hx : b0.setX ext x = (b1, .ok ())) : ∃ d1, b0.setX ext x' = (d1, .ok ()) ∧
      ∀ calls : List (BuilderCall K), d1.replies ext calls = b1.replies ext calls :=
  ⟨_, setX_moved hr hs hscore hx, fun calls => replies_moved calls _ _⟩

variable {ι : Type} {ad ad' ad2 : Auditor K} {X X' : List (ι × List K)} {T T' : List (ι × AuditRow K)} {y y' : Int}
  {k k' : ℕ} {l l' m m' : ι} {row row' : AuditRow K}

/-- **C120**, audits.  With a solver that answers equal programs equally (nothing else is assumed of it), two people who agree
at all features that can change and have equal scores get equal entries, in the same audit or in two audits by the same auditor. -/
theorem C120_audit (ho : o.Steady) (hr : ad.Reachable ext)
    (h : ad.audit ext o X y = (ad', .ok T)) (h' : ad.audit ext o X' y = (ad2, .ok T'))
    (hX : X[k]? = some (l, x)) (hT : T[k]? = some (m, row)) (hX' : X'[k']? = some (l', x')) (hT' : T'[k']? = some (m', row'))
    (hs : SameActionable ad.builder.aset x x') (hscore : dot ad.coefs x' = dot ad.coefs x) :
    row' = row := by
  obtain ⟨e1, e2⟩ := audit_entry hr h hX hT
  obtain ⟨f1, f2⟩ := audit_entry hr h' hX' hT'
  have hiff : HasOutcome y ad.coefs ad.intercept x' ↔ HasOutcome y ad.coefs ad.intercept x := by
    unfold HasOutcome; rw [hscore]
  by_cases hh : HasOutcome y ad.coefs ad.intercept x
  · rw [e1 hh, f1 (hiff.mpr hh)]
  obtain ⟨hb, hw, -, -⟩ := hr.inv
  obtain ⟨n, b1, b3, i, k1, k2, rfl⟩ := e2 hh
  obtain ⟨n', d1, d3, i', g1, g2, rfl⟩ := f2 fun hh' => hh (hiff.mp hh')
  rw [setX_moved hb hs (by rw [hw, hscore]) k1] at g1
  cases g1
  rw [ho.at] at k2 g2
  rw [fit_moved, k2] at g2
  cases g2
  rfl

/-- Two points that differ in two features that are not actionable and have equal scores: a single change answers both. -/
theorem C120_example (be : Backend) : ∃ b0 b1 : Builder ℚ, b0.Reachable exExt ∧
    (∃ A : ActionSet ℚ, A.Reachable exExt ∧ mkBuilder be .total A b0.coefs (-2) = .ok b0) ∧ SameActionable b0.aset [0, 0, 1] [0, 1, 0] ∧
    dot b0.coefs [0, 1, 0] = dot b0.coefs [0, 0, 1] ∧ b0.setX exExt [0, 0, 1] = (b1, .ok ()) ∧
    ∀ o : Oracle ℚ, o.Exact → ∃ b3 i, b1.fit o = .ok (b3, i) ∧ i.feasible = true ∧ i.actions = some [1, 0, 0] := by
  have key : ∀ be, ∃ b0 : Builder ℚ,
      exBuilderE be .total [[0, 0, 0], [1, 1, 1], [2, 1, 1]] ["a", "b", "c"]
        (fun A => .ok ((A.setElemAttr "b" "actionable" (.bool false)).1.setElemAttr "c" "actionable" (.bool false)).1)
        [1, 1, 1] (-2) = .ok b0 ∧ b0.costType = .total ∧ b0.coefs = [1, 1, 1] ∧
      b0.aset.elems.map (·.actionable) = [true, false, false] ∧
      (b0.setX exExt [0, 0, 1]).2 = .ok () ∧
      admitted (b0.buildArgs [0, 0, 1] (b0.setX exExt [0, 0, 1]).1.feats) (fun _ => true) ≠ [] ∧
      (∀ κ ∈ optChoices (b0.buildArgs [0, 0, 1] (b0.setX exExt [0, 0, 1]).1.feats) (fun _ => true),
        actVec b0.coefs.length (b0.setX exExt [0, 0, 1]).1.feats κ = [1, 0, 0]) := by
    intro be; cases be <;> decide +kernel
  obtain ⟨b0, h1, h2, h5, h6, h7, h9, h10⟩ := key be
  have hr : b0.Reachable exExt := exBuilderE_reachable h1 fun A A' hA h => by
    cases h; exact .setElem _ _ _ (.setElem _ _ _ hA)
  obtain ⟨b1, hs⟩ : ∃ b1, b0.setX exExt [0, 0, 1] = (b1, .ok ()) := ⟨_, Prod.ext rfl h7⟩
  have hel : ∀ (j : ℕ) (e : Elem ℚ), b0.aset.elems[j]? = some e →
      ([true, false, false] : List Bool)[j]? = some e.actionable := by
    intro j e he
    rw [← h6, List.getElem?_map, he]; rfl
  have hA : ∃ A : ActionSet ℚ, A.Reachable exExt ∧ mkBuilder be .total A b0.coefs (-2) = .ok b0 := by
    rw [h5]
    unfold exBuilderE at h1
    simp only [bind_ok_iff] at h1
    obtain ⟨A, hA, A', hA', hb0⟩ := h1
    cases hA'
    exact ⟨_, .setElem _ _ _ (.setElem _ _ _ (.mk hA)), hb0⟩
  refine ⟨b0, b1, hr, hA, ⟨rfl, fun j e he ha => ?_⟩, ?_, hs, fun o ho => ?_⟩
  · have := hel j e he
    rw [ha] at this
    match j, this with
    | 0, _ => rfl
    | 1, h => cases h
    | 2, h => cases h
    | (n + 3), h => simp at h
  · rw [h5]; decide +kernel
  obtain ⟨b1', feats, g1, -, g2, b3, i, g3, g4⟩ := exSolve exExt_order hr h7 ho
  rw [hs] at g1; cases g1
  rw [g2] at h9 h10
  rcases g4 with ⟨h, -⟩ | ⟨κ, hκ, -, gf, ga, -, gc, -⟩
  · exact absurd h h9
  exact ⟨b3, i, g3, gf, by rw [ga, h10 κ hκ]⟩

end Recourse
