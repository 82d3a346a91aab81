import Verif.Props.SessionQuiet
import Verif.Lemmas.Exec

/-!
# Sessions: new builders, a program with several objects, and interference by a new auditor (C111)
-/

set_option linter.unusedSectionVars false

namespace Recourse

section
variable {K : Type} [Field K] [LinearOrder K] [IsStrictOrderedRing K] [FloorRing K]

variable {ext : Ext K} {A A' A2 : ActionSet K} {b b' : Builder K} {S S' S2 S2' : Session K} {r : BRef} {k : ℕ} {rep : Reply K} {c : Call K}

theorem Session.Reachable.call (h : S.Reachable ext) (hc : S.call ext c = some (S', rep)) : S'.Reachable ext := by
  obtain ⟨l, reps, hl⟩ := h
  refine ⟨l ++ [c], reps ++ [rep], ?_⟩
  generalize hE : (Session.empty : Session K) = E at hl
  clear hE
  induction l generalizing E reps with
  | nil =>
    unfold Session.run at hl
    cases hl
    rw [List.nil_append, List.nil_append]
    unfold Session.run
    rw [hc]
    dsimp only
    unfold Session.run
    rfl
  | cons d l ih =>
    obtain ⟨S1, rep1, reps', h1, h2, rfl⟩ := run_cons hl
    have := ih _ _ h2
    rw [List.cons_append, List.cons_append]
    unfold Session.run
    rw [h1]
    dsimp only
    rw [this]

theorem call_newBuilder_done {n : ℕ} {be : Backend} {ct : CostType} {w : List K} {t : K}
    (h : S.call ext (.newBuilder n k be ct w t) = some (S', .done)) : ∃ A b, S.sets k = some A ∧ S.builders (.named n) = none ∧
      mkBuilder be ct A w t = .ok b ∧ S' = { S with
          sets := Function.update S.sets k (some b.aset)
          builders := Function.update S.builders (.named n) (some (k, b)) } := by
  unfold Session.call at h
  dsimp only at h
  rcases hk : S.sets k with _ | A
  · rw [hk] at h; cases h
  rcases hb : S.builders (.named n) with _ | p
  · rw [hk, hb] at h
    dsimp only at h
    rcases hm : mkBuilder be ct A w t with er | b
    · rw [hm] at h; cases h
    · rw [hm] at h; cases h; exact ⟨A, b, rfl, rfl, hm, rfl⟩
  · rw [hk, hb] at h; cases h

theorem call_newAuditor_done {a : ℕ} {be : Backend} {w : List K} {t : K}
    (h : S.call ext (.newAuditor a k be w t) = some (S', .done)) : ∃ A ad, S.sets k = some A ∧ S.builders (.ofAuditor a) = none ∧
      S.auditors a = none ∧ mkAuditor be A w t = .ok ad ∧ S' = { S with
          sets := Function.update S.sets k (some ad.builder.aset)
          builders := Function.update S.builders (.ofAuditor a) (some (k, ad.builder))
          auditors := Function.update S.auditors a (some (ad.coefs, ad.intercept)) } := by
  unfold Session.call at h
  dsimp only at h
  rcases hk : S.sets k with _ | A
  · rw [hk] at h; cases h
  rcases hb : S.builders (.ofAuditor a) with _ | p
  swap
  · rw [hk, hb] at h; cases h
  rcases ha : S.auditors a with _ | q
  swap
  · rw [hk, hb, ha] at h; cases h
  rw [hk, hb, ha] at h
  dsimp only at h
  rcases hm : mkAuditor be A w t with er | ad
  · rw [hm] at h; cases h
  · rw [hm] at h; cases h; exact ⟨A, ad, rfl, rfl, rfl, hm, rfl⟩

/-- No flipset refers to a builder that is not there, apart from its own. -/
theorem Session.OK.no_flipset (h : S.OK ext) (hn : S.builders r = none) (hr : ∀ f, r ≠ .ofFlipset f) {f k' : ℕ} {fs : Flipset K} :
    S.flipsets f ≠ some (k', r, fs) := by
  intro hf
  exact hr f ((h.flipsets f k' r fs hf).2.1 hn)

/-- **C111**, every builder and auditor that was just made meets the hypotheses of `C111_interleaved`: it works on its action set, and that
is aligned. -/
theorem C111_new (h : S.Reachable ext) :
    (∀ n be ct w t, S.call ext (.newBuilder n k be ct w t) = some (S', .done) →
      S'.Reachable ext ∧ S'.WorksOn (.named n) k ∧ ∃ A, S'.sets k = some A ∧ A.alignmentKnown = true) ∧
    ∀ a be w t, S.call ext (.newAuditor a k be w t) = some (S', .done) →
      S'.Reachable ext ∧ S'.WorksOn (.ofAuditor a) k ∧ ∃ A, S'.sets k = some A ∧ A.alignmentKnown = true := by
  refine ⟨fun n be ct w t hc => ?_, fun a be w t hc => ?_⟩
  · refine ⟨h.call hc, ?_⟩
    obtain ⟨A, b, hk, hn, hm, rfl⟩ := call_newBuilder_done hc
    refine ⟨⟨?_, ?_, ?_⟩, ?_⟩
    · intro k' b' hb
      dsimp only at hb
      rw [Function.update_self] at hb; cases hb; rfl
    · intro hx
      dsimp only at hx
      rw [Function.update_self] at hx; cases hx
    · intro f k' fs hf
      exact absurd hf (h.ok.no_flipset hn (fun f e => by cases e))
    · exact ⟨b.aset, Function.update_self .., (mkBuilder_aligned hm).known (h.ok.sets k A hk)⟩
  · refine ⟨h.call hc, ?_⟩
    obtain ⟨A, ad, hk, hn, ha, hm, rfl⟩ := call_newAuditor_done hc
    refine ⟨⟨?_, ?_, ?_⟩, ?_⟩
    · intro k' b' hb
      dsimp only at hb
      rw [Function.update_self] at hb; cases hb; rfl
    · intro hx
      dsimp only at hx
      rw [Function.update_self] at hx; cases hx
    · intro f k' fs hf
      exact absurd hf (h.ok.no_flipset hn (fun f e => by cases e))
    · refine ⟨ad.builder.aset, Function.update_self .., ?_⟩
      unfold mkAuditor at hm
      obtain ⟨B1, h1, hm⟩ := bind_ok_iff.mp hm
      obtain ⟨b, h2, hm⟩ := bind_ok_iff.mp hm
      rw [← Except.ok.inj hm]
      exact (mkBuilder_aligned h2).known (.align (h.ok.sets k A hk) h1)

/-- What a call raised. -/
def Reply.raised : Reply K → Option Err
  | .failed er => some er
  | .table (.error er) _ _ => some er
  | _ => none

theorem setAlignment_self {w : List K} (h : w.length = A.names.length)
    (hf : A.elems.map (·.flip) = w.map fun c => some (Int.sign (if 0 < A.yDesired then sgn c else -(sgn c)))) : A.setAlignment w = .ok A := by
  unfold ActionSet.setAlignment
  rw [decide_eq_true h, pyAssert_true, ok_bind]
  dsimp only
  have key : ∀ (l : List (Elem K)) (w : List K) (g : K → Int), l.map (·.flip) = w.map (fun c => some (Int.sign (g c))) →
      List.zipWith Elem.setFlip l (w.map g) = l := by
    intro l
    induction l with
    | nil => intro w g _; rfl
    | cons e l ih =>
      intro w g h
      cases w with
      | nil => cases h
      | cons c w =>
        rw [List.map_cons, List.map_cons, List.cons.injEq] at h
        rw [List.map_cons, List.zipWith_cons_cons, ih w g h.2]
        congr 1
        unfold Elem.setFlip
        rw [← h.1]
  rw [key A.elems w _ hf]

end

/-! ## Concrete programs -/

/-- Two binary features, and a builder for the classifier with coefficients `[1, 1]` and intercept `-2`. -/
def exProgram (be : Backend) (ct : CostType) : List (Call ℚ) :=
  [.newSet 0 [[0, 0], [1, 1]] ["a", "b"] 1 [] defaultBounds (.str "relative"), .newBuilder 0 0 be ct [1, 1] (-2)]

/-- A solver that never finds anything. -/
def idleOracle : Oracle ℚ := fun _ _ => .infeasible

/-- The rest of the program: another builder, an auditor for the same classifier and a flipset are made and used between calls to the
first builder. -/
def exRest (be : Backend) (ct : CostType) : List (Call ℚ) :=
  [.builder (.named 0) (.setX [1, 0]), .newAuditor 0 0 be [1, 1] (-2), .newBuilder 1 0 be ct [2, 1] (-1),
   .audit 0 idleOracle [(0, [0, 0]), (1, [1, 0])] 1, .builder (.named 1) (.setX [0, 0]), .newFlipset 0 0 none be [0, 0] [1, 1] (-2),
   .populate 0 idleOracle 5 none .distinctSubsets ct, .set 0 (.percentile 0), .builder (.named 0) (.fit idleOracle),
   .builder (.named 0) (.setX [0, 0]), .builder (.named 0) (.populate idleOracle .mutuallyExclusive 5 none)]

theorem exProgram_state (be : Backend) (ct : CostType) : ∃ (S : Session ℚ) (A : ActionSet ℚ), S.Reachable exExt ∧ S.WorksOn (.named 0) 0 ∧
    S.sets 0 = some A ∧ A.alignmentKnown = true ∧ A.setAlignment [1, 1] = .ok A ∧ ∃ reps, Session.run exExt .empty (exProgram be ct) = some (S, reps) := by
  have q1 : ((Session.run exExt .empty (exProgram be ct)).map fun p => p.2.map Reply.raised) = some [none, none] := by
    cases be <;> cases ct <;> decide +kernel
  have q2 : ((Session.run exExt .empty (exProgram be ct)).bind fun p => (p.1.sets 0).map fun A => A.names.length) = some 2 := by
    cases be <;> cases ct <;> decide +kernel
  have q3 : ((Session.run exExt .empty (exProgram be ct)).bind fun p => (p.1.sets 0).map fun A => A.yDesired) = some 1 := by
    cases be <;> cases ct <;> decide +kernel
  have q4 : ((Session.run exExt .empty (exProgram be ct)).bind fun p => (p.1.sets 0).map fun A => A.elems.map (·.flip)) =
      some [some 1, some 1] := by
    cases be <;> cases ct <;> decide +kernel
  rcases h : Session.run exExt .empty (exProgram be ct) with _ | ⟨S, reps⟩
  · rw [h] at q1; cases q1
  rw [h] at q1 q2 q3 q4
  have k1 : reps.map Reply.raised = [none, none] := Option.some.inj q1
  have h0 := h
  obtain ⟨S1, rep1, reps1, h1, h7, rfl⟩ := run_cons h
  obtain ⟨S2, rep2, reps2, h2, h8, rfl⟩ := run_cons h7
  unfold Session.run at h8
  cases h8
  have hr1 : S1.Reachable exExt := Session.Reachable.call ⟨[], [], rfl⟩ h1
  have hd : rep2 = .done := by
    have hx := congrArg (fun l : List (Option Err) => l[1]?) k1
    have hx : rep2.raised = none := Option.some.inj hx
    unfold Session.call at h2
    dsimp only at h2
    rcases hk : S1.sets 0 with _ | A
    · rw [hk] at h2; cases h2
    rcases hb : S1.builders (.named 0) with _ | p
    · rw [hk, hb] at h2
      dsimp only at h2
      rcases hm : mkBuilder be ct A [1, 1] (-2) with er | b
      · rw [hm] at h2; cases h2; cases hx
      · rw [hm] at h2; cases h2; rfl
    · rw [hk, hb] at h2; cases h2
  subst hd
  obtain ⟨g1, g2, A, g3, g4⟩ := (C111_new hr1).1 0 be ct [1, 1] (-2) h2
  refine ⟨S, A, g1, g2, g3, g4, ?_, _, rfl⟩
  rw [Option.bind_some] at q2 q3 q4
  dsimp only at q2 q3 q4
  rw [g3] at q2 q3 q4
  have e1 : A.names.length = 2 := Option.some.inj q2
  have e2 : A.yDesired = 1 := Option.some.inj q3
  have e3 : A.elems.map (·.flip) = [some 1, some 1] := Option.some.inj q4
  refine setAlignment_self (by rw [e1]; rfl) ?_
  rw [e3, e2]
  decide +kernel

/-- Non-vacuity of C111: the program runs to its end, and all calls are calls to the builder or spare it.  So the four calls to the
builder give the same replies without the others. -/
theorem C111_example (be : Backend) (ct : CostType) : ∃ (S S' S2 : Session ℚ) (A : ActionSet ℚ) (reps : List (Reply ℚ)), S.Reachable exExt ∧
    S.WorksOn (.named 0) 0 ∧ S.sets 0 = some A ∧ A.alignmentKnown = true ∧
    (∀ c ∈ exRest be ct, S.uses c = some (.named 0) ∨ c.Spares A 0 (.named 0)) ∧ S.run exExt (exRest be ct) = some (S', reps) ∧
    reps.map Reply.raised = [none, none, none, none, none, none, none, none, none, none, none] ∧
    ∃ r1 r2 r3 r4 : Reply ℚ, S.run exExt [.builder (.named 0) (.setX [1, 0]), .builder (.named 0) (.fit idleOracle),
      .builder (.named 0) (.setX [0, 0]), .builder (.named 0) (.populate idleOracle .mutuallyExclusive 5 none)] = some (S2, [r1, r2, r3, r4]) ∧
    reps[0]? = some r1 ∧ reps[8]? = some r2 ∧ reps[9]? = some r3 ∧ reps[10]? = some r4 := by
  obtain ⟨S, A, h1, h2, h3, h4, h5, reps0, h6⟩ := exProgram_state be ct
  have key : (Session.run exExt .empty (exProgram be ct)).bind (fun p => (p.1.run exExt (exRest be ct)).map fun q => q.2.map Reply.raised) =
      some [none, none, none, none, none, none, none, none, none, none, none] := by
    cases be <;> cases ct <;> decide +kernel
  rw [h6] at key
  rcases hrun : S.run exExt (exRest be ct) with _ | ⟨S', reps⟩
  · rw [Option.bind_some, hrun] at key; cases key
  rw [Option.bind_some, hrun] at key
  have key : reps.map Reply.raised = _ := Option.some.inj key
  have hl : ∀ c ∈ exRest be ct, S.uses c = some (.named 0) ∨ c.Spares A 0 (.named 0) := by
    intro c hc
    unfold exRest at hc
    simp only [List.mem_cons, List.not_mem_nil, or_false] at hc
    rcases hc with rfl | rfl | rfl | rfl | rfl | rfl | rfl | rfl | rfl | rfl | rfl
    · exact Or.inl rfl
    · exact Or.inr (Or.inr h5)
    · exact Or.inr trivial
    · exact Or.inr trivial
    · exact Or.inr trivial
    · exact Or.inr (fun e => by cases e)
    · exact Or.inr trivial
    · exact Or.inr (Or.inr trivial)
    · exact Or.inl rfl
    · exact Or.inl rfl
    · exact Or.inl rfl
  have hno : S.flipsets 0 = none := by
    obtain ⟨S1, rep1, reps1, g1, h, -⟩ := run_cons hrun
    obtain ⟨S2, rep2, reps2, g2, h, -⟩ := run_cons h
    obtain ⟨S3, rep3, reps3, g3, h, -⟩ := run_cons h
    obtain ⟨S4, rep4, reps4, g4, h, -⟩ := run_cons h
    obtain ⟨S5, rep5, reps5, g5, h, -⟩ := run_cons h
    obtain ⟨S6, rep6, reps6, g6, h, -⟩ := run_cons h
    have := Twins.refl h1.ok h3 h4 h2
    obtain ⟨B, -, hf, -⟩ := call_newFlipset g6
    have st : ∀ (T : Session ℚ) (q : BRef) (b : Builder ℚ), (T.store q b).flipsets = T.flipsets := by
      intro T q b
      unfold Session.store
      rcases T.builders q with _ | ⟨k0, b0⟩ <;> rfl
    obtain ⟨_, _, -, -, rfl⟩ := call_builder g5
    obtain ⟨_, _, _, -, -, -, rfl⟩ := call_audit g4
    rw [st, st] at hf
    obtain ⟨_, _, -, -, rfl⟩ := call_builder g1
    rcases call_newBuilder g3 with rfl | ⟨_, _, -, -, -, rfl⟩ <;> rcases call_newAuditor g2 with rfl | ⟨_, _, -, -, -, -, rfl⟩ <;>
      simpa only [st] using hf
  obtain ⟨S2, hS2⟩ := C111_interleaved h1 h3 h4 h2 hl hrun
  refine ⟨S, S', S2, A, reps, h1, h2, h3, h4, hl, hrun, key, ?_⟩
  have hlen : reps.length = 11 := by have := congrArg List.length key; simpa using this
  obtain ⟨a0, a1, a2, a3, a4, a5, a6, a7, a8, a9, a10, rfl⟩ : ∃ a0 a1 a2 a3 a4 a5 a6 a7 a8 a9 a10,
      reps = [a0, a1, a2, a3, a4, a5, a6, a7, a8, a9, a10] := by
    match reps, hlen with
    | [a0, a1, a2, a3, a4, a5, a6, a7, a8, a9, a10], _ => exact ⟨a0, a1, a2, a3, a4, a5, a6, a7, a8, a9, a10, rfl⟩
  refine ⟨a0, a8, a9, a10, ?_, rfl, rfl, rfl, rfl⟩
  have hu : S.uses (.populate 0 idleOracle 5 none .distinctSubsets ct) = none := by
    unfold Session.uses; dsimp only; rw [hno]; rfl
  have e1 : (exRest be ct).filter (fun c => decide (S.uses c = some (.named 0))) =
      [.builder (.named 0) (.setX [1, 0]), .builder (.named 0) (.fit idleOracle), .builder (.named 0) (.setX [0, 0]),
       .builder (.named 0) (.populate idleOracle .mutuallyExclusive 5 none)] := by
    unfold exRest
    simp [Session.uses, hno]
  have e2 : repliesTo (fun c => decide (S.uses c = some (.named 0))) (exRest be ct) [a0, a1, a2, a3, a4, a5, a6, a7, a8, a9, a10] =
      [a0, a8, a9, a10] := by
    unfold exRest
    simp [repliesTo, Session.uses, hno]
  rw [e1, e2] at hS2
  exact hS2

/-- The condition on the directions is needed: to make an auditor for another classifier and the same action set changes what the builder
answers.  Without it the assignment of `[1, 0]` works; with it, it raises `AssertionError`. -/
theorem C111_realign_refuted (be : Backend) (ct : CostType) : ∃ S : Session ℚ, S.Reachable exExt ∧ S.WorksOn (.named 0) 0 ∧
    ((S.run exExt [.builder (.named 0) (.setX [1, 0])]).map fun p => p.2.map Reply.raised) = some [none] ∧
    ((S.run exExt [.newAuditor 0 0 be [-1, 1] 0, .builder (.named 0) (.setX [1, 0])]).map fun p => p.2.map Reply.raised) =
      some [none, some .assertion] := by
  obtain ⟨S, A, h1, h2, h3, h4, h5, reps0, h6⟩ := exProgram_state be ct
  have k1 : ((Session.run exExt .empty (exProgram be ct)).bind fun p => (p.1.run exExt [.builder (.named 0) (.setX [1, 0])]).map fun q =>
      q.2.map Reply.raised) = some [none] := by
    cases be <;> cases ct <;> decide +kernel
  have k2 : ((Session.run exExt .empty (exProgram be ct)).bind fun p =>
      (p.1.run exExt [.newAuditor 0 0 be [-1, 1] 0, .builder (.named 0) (.setX [1, 0])]).map fun q => q.2.map Reply.raised) =
      some [none, some .assertion] := by
    cases be <;> cases ct <;> decide +kernel
  rw [h6] at k1 k2
  exact ⟨S, h1, h2, k1, k2⟩

end Recourse
