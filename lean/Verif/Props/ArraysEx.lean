import Verif.Props.Arrays

/-!
# C114: a program that reuses its arrays, and one that writes to an array in use
-/

set_option linter.unusedSectionVars false

namespace Recourse

section
variable {K : Type} [Field K] [LinearOrder K] [IsStrictOrderedRing K] [FloorRing K]

/-- What a step wrote to. -/
def ArrStep.target : ArrStep K → Option ℕ
  | .write a _ => some a
  | _ => none

/-- Computes whether the writes of a run went to arrays that the program made. -/
def ownRun : List ℕ → List (ArrStep K) → List (ArrOut K) → Bool
  | own, c :: cs, o :: os => (c.target.all fun a => own.contains a) && ownRun (madeBy c o ++ own) cs os
  | _, _, _ => true

theorem writesOwn_of_run {ext : Ext K} {s s' : Arrays K} {P : List (ArrStep K)} {outs : List (ArrOut K)} {own : List ℕ}
    (hr : s.run ext P = some (s', outs)) (ho : ownRun own P outs = true) : WritesOwn ext own s P := by
  induction P generalizing s outs own with
  | nil => trivial
  | cons c cs ih =>
    obtain ⟨s1, out, outs1, h1, h2, rfl⟩ := Arrays.run_cons hr
    unfold ownRun at ho
    obtain ⟨o1, o2⟩ := (Bool.and_eq_true _ _).mp ho
    refine ⟨?_, fun t o ht => ?_⟩
    · rintro a v rfl
      simpa [ArrStep.target] using o1
    · rw [h1] at ht
      cases ht
      exact ih h2 o2

/-- The coefficients that a new builder is given. -/
def Call.coefficients? : Call K → Option (List K)
  | .newBuilder _ _ _ _ w _ => some w
  | _ => none

theorem respects_append {ext : Ext K} {s s' : Arrays K} {P Q : List (ArrStep K)} {outs : List (ArrOut K)} (hr : s.run ext P = some (s', outs))
    (h : Respects ext s (P ++ Q)) : Respects ext s' Q := by
  induction P generalizing s outs with
  | nil => cases hr; exact h
  | cons c cs ih =>
    obtain ⟨s1, out, outs1, h1, h2, rfl⟩ := Arrays.run_cons hr
    exact ih h2 (h.2 s1 out h1)

/-- What a step raised. -/
def ArrOut.raised : ArrOut K → Option Err
  | .reply _ r => r.raised
  | _ => none

end

/-- A program that uses one array for the coefficients of a builder and for other things afterwards, and does the same with points. -/
def exArrays (be : Backend) (ct : CostType) : List (ArrStep ℚ) :=
  [.new [1, 1],
   .call (fun _ => .newSet 0 [[0, 0], [1, 1]] ["a", "b"] 1 [] defaultBounds (.str "relative")),
   .call (fun m => .newBuilder 0 0 be ct (m.getD 0 []) (-2)),
   .write 0 [5, 7],
   .new [1, 0],
   .call (fun m => .builder (.named 0) (.setX (m.getD 2 []))),
   .write 2 [0, 0],
   .builderX (.named 0),
   .write 3 [8, 9],
   .call (fun _ => .builder (.named 0) (.fit idleOracle))]

/-- Non-vacuity of C114: the program runs to its end, writes to its own arrays only, and at the end the arrays hold what the program wrote, but the builder
still has the coefficients and the point it was given. -/
theorem C114_example (be : Backend) (ct : CostType) : ∃ s' outs, (Arrays.empty : Arrays ℚ).run exExt (exArrays be ct) = some (s', outs) ∧
    WritesOwn exExt [] .empty (exArrays be ct) ∧ Respects exExt .empty (exArrays be ct) ∧ (repliesOf outs).map Reply.raised = [none, none, none, none] ∧
    s'.heap = [[5, 7], [1, 1], [0, 0], [8, 9]] ∧
    (s'.session.builders (.named 0)).map (fun q => q.2.coefs) = some [1, 1] ∧ (s'.session.builders (.named 0)).map (fun q => q.2.x) = some (some [1, 0]) ∧
    (callsOf outs)[1]?.bind Call.coefficients? = some [1, 1] := by
  have q1 : ((Arrays.empty : Arrays ℚ).run exExt (exArrays be ct)).map (fun p => ownRun [] (exArrays be ct) p.2) = some true := by
    cases be <;> cases ct <;> decide +kernel
  have q2 : ((Arrays.empty : Arrays ℚ).run exExt (exArrays be ct)).map (fun p => (repliesOf p.2).map Reply.raised) =
      some [none, none, none, none] := by
    cases be <;> cases ct <;> decide +kernel
  have q3 : ((Arrays.empty : Arrays ℚ).run exExt (exArrays be ct)).map (fun p => p.1.heap) = some [[5, 7], [1, 1], [0, 0], [8, 9]] := by
    cases be <;> cases ct <;> decide +kernel
  have q4 : ((Arrays.empty : Arrays ℚ).run exExt (exArrays be ct)).map (fun p => (p.1.session.builders (.named 0)).map (fun q => q.2.coefs)) =
      some (some [1, 1]) := by
    cases be <;> cases ct <;> decide +kernel
  have q5 : ((Arrays.empty : Arrays ℚ).run exExt (exArrays be ct)).map (fun p => (p.1.session.builders (.named 0)).map (fun q => q.2.x)) =
      some (some (some [1, 0])) := by
    cases be <;> cases ct <;> decide +kernel
  have q6 : ((Arrays.empty : Arrays ℚ).run exExt (exArrays be ct)).map (fun p => (callsOf p.2)[1]?.bind Call.coefficients?) = some (some [1, 1]) := by
    cases be <;> cases ct <;> decide +kernel
  rcases h : (Arrays.empty : Arrays ℚ).run exExt (exArrays be ct) with _ | ⟨s', outs⟩
  · rw [h] at q1; cases q1
  rw [h] at q1 q2 q3 q4 q5 q6
  have hw := writesOwn_of_run h (Option.some.inj q1)
  exact ⟨s', outs, rfl, hw, C114_own hw, Option.some.inj q2, Option.some.inj q3, Option.some.inj q4, Option.some.inj q5, Option.some.inj q6⟩

/-- A program that writes `w` to the coefficients of an auditor between two audits of the same person. -/
def exInUse (be : Backend) (w : List ℚ) : List (ArrStep ℚ) :=
  [.call (fun _ => .newSet 0 [[0, 0], [1, 1]] ["a", "b"] 1 [] defaultBounds (.str "relative")),
   .call (fun _ => .newAuditor 0 0 be [1, 1] (-1)),
   .call (fun _ => .audit 0 idleOracle [(0, [1, 1])] 1),
   .auditorCoefficients 0,
   .write 0 w,
   .call (fun _ => .audit 0 idleOracle [(0, [1, 1])] 1)]

/-- The condition is needed: `auditor.coefficients` is the array that the auditor predicts with.  Who writes to it gets a table from the
same audit that raised an exception before, because nobody was denied: now the person is denied, but the builder of the auditor
searches actions for the old coefficients. -/
theorem C114_in_use_refuted (be : Backend) :
    (((Arrays.empty : Arrays ℚ).run exExt (exInUse be [1, 1])).map fun p => p.2.map ArrOut.raised) = some [none, none, some .key, none, none, some .key] ∧
    (((Arrays.empty : Arrays ℚ).run exExt (exInUse be [0, 0])).map fun p => p.2.map ArrOut.raised) = some [none, none, some .key, none, none, none] ∧
    ¬ Respects exExt .empty (exInUse be [0, 0]) := by
  refine ⟨by cases be <;> decide +kernel, by cases be <;> decide +kernel, fun hR => ?_⟩
  have k1 : ((Arrays.empty : Arrays ℚ).run exExt ((exInUse be [0, 0]).take 4)).map (fun p => p.1.auditorW 0) = some (some 0) := by
    cases be <;> decide +kernel
  rcases h : (Arrays.empty : Arrays ℚ).run exExt ((exInUse be [0, 0]).take 4) with _ | ⟨s', outs⟩
  · rw [h] at k1; cases k1
  rw [h] at k1
  have hw : Respects exExt s' ((exInUse be [0, 0]).drop 4) := respects_append h (by rw [List.take_append_drop]; exact hR)
  exact hw.1 0 [0, 0] rfl (Or.inr (Or.inl ⟨0, Option.some.inj k1⟩))

end Recourse
