import Verif.Props.Session
import Verif.Props.Tables

/-!
# Builders, auditors and flipsets that differ in the memory of their action set only (C111)
-/

set_option linter.unusedSectionVars false

namespace Recourse

variable {K : Type} [Field K] [LinearOrder K] [IsStrictOrderedRing K] [FloorRing K]

variable {ext : Ext K} {A A' A2 : ActionSet K} {b b' b2 b2' : Builder K} {rep : Reply K} {o : Oracle K}

/-! ## Calls that do not read the action set -/

/-- The builder with another action set. -/
def Builder.onSet (b : Builder K) (A : ActionSet K) : Builder K := { b with aset := A }

theorem Builder.onSet_self (b : Builder K) : b.onSet b.aset = b := rfl

theorem solve_onSet (o : Oracle K) (b : Builder K) (A : ActionSet K) : (b.onSet A).solve o = (b.solve o).onSet A := by
  unfold Builder.solve
  have hm : (b.onSet A).mip = b.mip := rfl
  rw [hm]
  cases b.mip <;> rfl

theorem removeSolution_onSet (et : EnumType) (b : Builder K) (σ : Var → K) (A : ActionSet K) :
    (b.onSet A).removeSolution et σ = (b.removeSolution et σ).onSet A := by
  cases et <;> rfl

theorem solutionInfo_onSet (b : Builder K) (A : ActionSet K) : (b.onSet A).solutionInfo = b.solutionInfo := rfl

theorem reported_onSet (b : Builder K) (A : ActionSet K) : (b.onSet A).reported = b.reported := rfl

/-- The result of an enumeration, with another action set. -/
def onSetRes (A : ActionSet K) (p : Builder K × List (Info K)) : Builder K × List (Info K) := (p.1.onSet A, p.2)

theorem popLoop_onSet (o : Oracle K) (et : EnumType) (A : ActionSet K) (fuel : ℕ) (total : Option ℕ) (b : Builder K) (acc : List (Info K)) :
    Builder.popLoop o et fuel total (b.onSet A) acc = (Builder.popLoop o et fuel total b acc).map (onSetRes A) := by
  induction fuel generalizing total b acc with
  | zero =>
    rcases total with _ | _ | n <;> unfold Builder.popLoop <;> rfl
  | succ fuel ih =>
    have step : ∀ total : Option ℕ, total ≠ some 0 →
        Builder.popLoop o et (fuel + 1) total (b.onSet A) acc = (Builder.popLoop o et (fuel + 1) total b acc).map (onSetRes A) := by
      intro total ht
      rcases total with _ | _ | n
      · simp only [Builder.popLoop]
        rw [solve_onSet, reported_onSet]
        cases (b.solve o).reported with
        | none => rfl
        | some σ =>
          dsimp only
          rw [removeSolution_onSet, solutionInfo_onSet, ih]
      · exact absurd rfl ht
      · simp only [Builder.popLoop]
        rw [solve_onSet, reported_onSet]
        cases (b.solve o).reported with
        | none => rfl
        | some σ =>
          dsimp only
          rw [removeSolution_onSet, solutionInfo_onSet, ih]
    by_cases ht : total = some 0
    · subst ht; unfold Builder.popLoop; rfl
    · exact step total ht

theorem populate_onSet (o : Oracle K) (et : EnumType) (fuel : ℕ) (total : Option ℕ) (b : Builder K) (A : ActionSet K) :
    (b.onSet A).populate o et fuel total = (b.populate o et fuel total).map (Option.map (onSetRes A)) := by
  unfold Builder.populate
  have hm : (b.onSet A).mip = b.mip := rfl
  rw [hm]
  by_cases h : b.mip.isNone = true
  · rw [if_pos h, if_pos h]; rfl
  · rw [if_neg h, if_neg h, popLoop_onSet]
    rcases total with _ | n
    · rfl
    · by_cases h1 : 1 ≤ n
      · simp only [h1]; rfl
      · simp only [h1]; rfl

theorem fit_onSet (o : Oracle K) (b : Builder K) (A : ActionSet K) :
    (b.onSet A).fit o = (b.fit o).map fun p => (p.1.onSet A, p.2) := by
  unfold Builder.fit
  have hm : (b.onSet A).mip = b.mip := rfl
  rw [hm]
  cases b.mip with
  | none => rfl
  | some m => dsimp only; rw [solve_onSet, solutionInfo_onSet]; rfl

theorem setItemLimits_onSet (b : Builder K) (lo hi : Option Int) (A : ActionSet K) :
    (b.onSet A).setItemLimits lo hi = ((b.setItemLimits lo hi).1.onSet A, (b.setItemLimits lo hi).2) := by
  rcases lo with _ | lo
  · rfl
  rcases hi with _ | hi
  · rfl
  unfold Builder.setItemLimits
  have h1 : (b.onSet A).minItems = b.minItems := rfl
  have h2 : (b.onSet A).maxItems = b.maxItems := rfl
  have h3 : (b.onSet A).mip = b.mip := rfl
  have h4 : (b.onSet A).nActionable = b.nActionable := rfl
  dsimp only
  rw [h1, h2, h3, h4]
  split_ifs
  · rfl
  · cases b.mip with
    | none => rfl
    | some m => dsimp only; rfl
  · cases b.mip with
    | none => rfl
    | some m => dsimp only; rfl
  · cases b.mip with
    | none => rfl
    | some m => dsimp only; rfl
  · rfl
  · rfl

theorem setMinItems_onSet (b : Builder K) (k : Option Int) (A : ActionSet K) :
    (b.onSet A).setMinItems k = ((b.setMinItems k).1.onSet A, (b.setMinItems k).2) := by
  unfold Builder.setMinItems
  rcases k with _ | k
  · rfl
  · dsimp only; split_ifs <;> rfl

theorem setMaxItems_onSet (b : Builder K) (k : Option Int) (A : ActionSet K) :
    (b.onSet A).setMaxItems k = ((b.setMaxItems k).1.onSet A, (b.setMaxItems k).2) := by
  unfold Builder.setMaxItems
  rcases k with _ | k
  · rfl
  · dsimp only; split_ifs <;> rfl

/-! ## Assignments -/

theorem onSet_setup (b : Builder K) (h : A.norm ext = b.aset.norm ext) : SameSetup ext b (b.onSet A) :=
  ⟨rfl, rfl, rfl, rfl, rfl, rfl, rfl, h⟩

/-- Assignments to builders whose sets look the same give the same builder, up to what the set remembers. -/
theorem setX_onSet (hb : BuilderOK ext b) (hb2 : BuilderOK ext (b.onSet A)) (h : A.norm ext = b.aset.norm ext) (x : List K) :
    ∃ A', (b.onSet A).setX ext x = ((b.setX ext x).1.onSet A', (b.setX ext x).2) ∧ A'.norm ext = (b.setX ext x).1.aset.norm ext := by
  have hs := onSet_setup b h
  have hi := hs.buildInfo x
  have hlen : (b.onSet A).coefs.length = b.coefs.length := rfl
  have hn1 := (SameSetup.setX hb x).aset
  have hn2 := (SameSetup.setX hb2 x).aset
  have hq : (b.onSet A).aset = A := rfl
  rw [hq] at hn2
  have fin : ∀ {b1 b2 : Builder K} {e : Except Err Unit}, b.setX ext x = (b1, e) → (b.onSet A).setX ext x = (b2, e) →
      b2 = b1.onSet b2.aset →
      ∃ A', (b.onSet A).setX ext x = ((b.setX ext x).1.onSet A', (b.setX ext x).2) ∧ A'.norm ext = (b.setX ext x).1.aset.norm ext := by
    intro b1 b2 e h1 h2 h3
    refine ⟨b2.aset, ?_, ?_⟩
    · rw [h1, h2]; dsimp only; rw [← h3]
    · rw [h1] at hn1
      rw [h2] at hn2
      rw [h1, hn1, hn2, h]
  rcases setX_cases ext b x with ⟨h1, h2⟩ | ⟨h1, er, h2, h3⟩ | ⟨h1, feats, er, h2, h3, h4⟩ | ⟨h1, feats, m, h2, h3, h4⟩
  · rcases setX_cases ext (b.onSet A) x with ⟨g1, g2⟩ | ⟨g1, er, g2, g3⟩ | ⟨g1, feats, er, g2, g3, g4⟩ | ⟨g1, feats, m, g2, g3, g4⟩
    · exact fin h2 g2 rfl
    · exact absurd g1 h1
    · exact absurd g1 h1
    · exact absurd g1 h1
  · rcases setX_cases ext (b.onSet A) x with ⟨g1, g2⟩ | ⟨g1, er', g2, g3⟩ | ⟨g1, feats, er', g2, g3, g4⟩ | ⟨g1, feats, m, g2, g3, g4⟩
    · exact absurd h1 g1
    · rw [hi, h2] at g2; cases g2; exact fin h3 g3 rfl
    · rw [hi, h2] at g2; cases g2
    · rw [hi, h2] at g2; cases g2
  · have ha := hs.buildArgs x feats
    have hbe : (b.onSet A).backend = b.backend := rfl
    rcases setX_cases ext (b.onSet A) x with ⟨g1, g2⟩ | ⟨g1, er', g2, g3⟩ | ⟨g1, feats', er', g2, g3, g4⟩ | ⟨g1, feats', m, g2, g3, g4⟩
    · exact absurd h1 g1
    · rw [hi, h2] at g2; cases g2
    · rw [hi, h2] at g2; cases g2
      rw [ha, hbe, h3] at g3; cases g3; exact fin h4 g4 rfl
    · rw [hi, h2] at g2; cases g2
      rw [ha, hbe, h3] at g3; cases g3
  · have ha := hs.buildArgs x feats
    have hbe : (b.onSet A).backend = b.backend := rfl
    rcases setX_cases ext (b.onSet A) x with ⟨g1, g2⟩ | ⟨g1, er', g2, g3⟩ | ⟨g1, feats', er', g2, g3, g4⟩ | ⟨g1, feats', m', g2, g3, g4⟩
    · exact absurd h1 g1
    · rw [hi, h2] at g2; cases g2
    · rw [hi, h2] at g2; cases g2
      rw [ha, hbe, h3] at g3; cases g3
    · rw [hi, h2] at g2; cases g2
      rw [ha, hbe, h3] at g3; cases g3; exact fin h4 g4 rfl

/-- Calls to builders whose sets look the same. -/
theorem builderCall_onSet (hb : b.Reachable ext) (hb2 : (b.onSet A).Reachable ext) (h : A.norm ext = b.aset.norm ext) {c : BuilderCall K}
    (hc : b.call ext c = some (b', rep)) : ∃ A', (b.onSet A).call ext c = some (b'.onSet A', rep) ∧ A'.norm ext = b'.aset.norm ext := by
  have hkin := (Builder.call_ok hb hc).2.aset
  cases c with
  | setX x =>
    unfold Builder.call at hc ⊢
    cases hc
    obtain ⟨A', h1, h2⟩ := setX_onSet hb.ok hb2.ok h x
    exact ⟨A', by dsimp only; rw [h1], h2⟩
  | fit o =>
    refine ⟨A, ?_, by rw [hkin, h]⟩
    unfold Builder.call at hc ⊢
    dsimp only at hc ⊢
    rw [fit_onSet]
    cases hf : b.fit o with
    | error er => rw [hf] at hc; cases hc; rfl
    | ok p => rw [hf] at hc; cases hc; rfl
  | populate o et fuel total =>
    refine ⟨A, ?_, by rw [hkin, h]⟩
    unfold Builder.call at hc ⊢
    dsimp only at hc ⊢
    rw [populate_onSet]
    cases hf : b.populate o et fuel total with
    | error er => rw [hf] at hc; cases hc; rfl
    | ok p =>
      rw [hf] at hc
      cases p with
      | none => cases hc
      | some p => cases hc; rfl
  | limits lo hi =>
    refine ⟨A, ?_, by rw [hkin, h]⟩
    unfold Builder.call at hc ⊢
    cases hc
    dsimp only
    rw [setItemLimits_onSet]
  | minItems k =>
    refine ⟨A, ?_, by rw [hkin, h]⟩
    unfold Builder.call at hc ⊢
    cases hc
    dsimp only
    rw [setMinItems_onSet]
  | maxItems k =>
    refine ⟨A, ?_, by rw [hkin, h]⟩
    unfold Builder.call at hc ⊢
    cases hc
    dsimp only
    rw [setMaxItems_onSet]

/-! ## Audits -/

theorem auditLoop_onSet (hb : b.Reachable ext) (hb2 : (b.onSet A).Reachable ext) (h : A.norm ext = b.aset.norm ext) (l : List (ℕ × List K)) :
    ∃ A', auditLoop ext o (b.onSet A) l = ((auditLoop ext o b l).1.onSet A', (auditLoop ext o b l).2) ∧
      A'.norm ext = (auditLoop ext o b l).1.aset.norm ext := by
  induction l generalizing b A with
  | nil => exact ⟨A, rfl, h⟩
  | cons p rest ih =>
    obtain ⟨i, x⟩ := p
    obtain ⟨A1, h1, h2⟩ := setX_onSet hb.ok hb2.ok h x
    rcases hx : b.setX ext x with ⟨b1, er | u⟩
    · rw [hx] at h1 h2
      refine ⟨A1, ?_, ?_⟩
      · unfold auditLoop; rw [h1, hx]
      · unfold auditLoop; rw [hx]; exact h2
    · cases u
      rw [hx] at h1 h2
      have hr1 : b1.Reachable ext := by have := Builder.Reachable.setX x hb; rw [hx] at this; exact this
      have hr2 : (b1.onSet A1).Reachable ext := by have := Builder.Reachable.setX x hb2; rw [h1] at this; exact this
      rcases hf : b1.fit o with er | ⟨b3, info⟩
      · have hf2 : (b1.onSet A1).fit o = .error er := by rw [fit_onSet, hf]; rfl
        refine ⟨A1, ?_, ?_⟩
        · unfold auditLoop; rw [h1, hx]; dsimp only; rw [hf, hf2]
        · unfold auditLoop; rw [hx]; dsimp only; rw [hf]; exact h2
      · have hf2 : (b1.onSet A1).fit o = .ok (b3.onSet A1, info) := by rw [fit_onSet, hf]; rfl
        have hk : b3.aset.norm ext = b1.aset.norm ext := (Builder.Used.fit .refl hf |>.setup hr1).2.aset
        obtain ⟨A3, h3, h4⟩ := ih (.fit hr1 hf) (.fit hr2 hf2) (h2.trans hk.symm)
        rcases hl : auditLoop ext o b3 rest with ⟨b4, er | out⟩
        · rw [hl] at h3 h4
          refine ⟨A3, ?_, ?_⟩
          · unfold auditLoop; rw [h1, hx]; dsimp only; rw [hf, hf2]; dsimp only; rw [h3, hl]
          · unfold auditLoop; rw [hx]; dsimp only; rw [hf]; dsimp only; rw [hl]; exact h4
        · rw [hl] at h3 h4
          refine ⟨A3, ?_, ?_⟩
          · unfold auditLoop; rw [h1, hx]; dsimp only; rw [hf, hf2]; dsimp only; rw [h3, hl]
          · unfold auditLoop; rw [hx]; dsimp only; rw [hf]; dsimp only; rw [hl]; exact h4

theorem audit_onSet {w : List K} {t : K} (hb : b.Reachable ext) (hb2 : (b.onSet A).Reachable ext) (h : A.norm ext = b.aset.norm ext)
    (X : List (ℕ × List K)) (y : Int) :
    ∃ A', (⟨w, t, b.onSet A⟩ : Auditor K).audit ext o X y =
        (⟨w, t, ((⟨w, t, b⟩ : Auditor K).audit ext o X y).1.builder.onSet A'⟩, ((⟨w, t, b⟩ : Auditor K).audit ext o X y).2) ∧
      A'.norm ext = ((⟨w, t, b⟩ : Auditor K).audit ext o X y).1.builder.aset.norm ext := by
  unfold Auditor.audit
  by_cases h1 : X.isEmpty = true
  · rw [if_pos h1, if_pos h1]; exact ⟨A, rfl, h⟩
  rw [if_neg h1, if_neg h1]
  dsimp only
  by_cases h2 : (X.any fun r => decide (r.2.length ≠ w.length)) = true
  · rw [if_pos h2, if_pos h2]; exact ⟨A, rfl, h⟩
  rw [if_neg h2, if_neg h2]
  by_cases h3 : ¬ (y = 1 ∨ y = -1 ∨ y = 0)
  · rw [if_pos h3, if_pos h3]; exact ⟨A, rfl, h⟩
  rw [if_neg h3, if_neg h3]
  have hsel : ∀ r, (⟨w, t, b.onSet A⟩ : Auditor K).selected y r = (⟨w, t, b⟩ : Auditor K).selected y r := fun _ => rfl
  simp only [hsel]
  generalize hs : ((uniqueRows (X.map (·.2))).zipIdx.filterMap fun p =>
    if (⟨w, t, b⟩ : Auditor K).selected y p.1 = true then some (p.2, p.1) else none) = sel
  obtain ⟨A', g1, g2⟩ := auditLoop_onSet (o := o) hb hb2 h sel
  rw [g1]
  rcases hl : auditLoop ext o b sel with ⟨b4, er | out⟩
  · rw [hl] at g2; exact ⟨A', rfl, g2⟩
  · rw [hl] at g2
    dsimp only at g2 ⊢
    by_cases ho : out.isEmpty = true
    · rw [if_pos ho, if_pos ho]; exact ⟨A', rfl, g2⟩
    · rw [if_neg ho, if_neg ho]; exact ⟨A', rfl, g2⟩

/-! ## Flipsets -/

/-- The flipset with another action set and another builder. -/
def Flipset.over (fs : Flipset K) (A : ActionSet K) (b : Option (Builder K)) : Flipset K := { fs with aset := A, builder := b }

theorem resort_over (fs : Flipset K) (A : ActionSet K) (b : Option (Builder K)) : (fs.over A b).resort = fs.resort.over A b := by
  unfold Flipset.resort
  by_cases h : fs.sortInplace = true
  · have h' : (fs.over A b).sortInplace = true := h
    rw [if_pos h, if_pos h']; rfl
  · have h' : ¬ (fs.over A b).sortInplace = true := h
    rw [if_neg h, if_neg h']

theorem sort_over (fs : Flipset K) (cols : List SortCol) (inplace : Bool) (A : ActionSet K) (b : Option (Builder K)) :
    (fs.over A b).sort cols inplace = (fs.sort cols inplace).map fun g => g.over A b := by
  unfold Flipset.sort
  by_cases h : cols.isEmpty = true
  · rw [if_pos h, if_pos h]; rfl
  · rw [if_neg h, if_neg h]
    have := resort_over ({ fs with sortBy := cols, sortInplace := inplace } : Flipset K) A b
    exact congrArg Except.ok this

theorem add_over (fs : Flipset K) (l : List (Info K)) (A : ActionSet K) (b : Option (Builder K)) :
    (fs.over A b).add l = (fs.add l).map fun g => g.over A b := by
  unfold Flipset.add
  have hv : (fs.over A b).validateItem = fs.validateItem := rfl
  rw [hv]
  cases hm : l.mapM fs.validateItem with
  | error er => rfl
  | ok items =>
    rw [ok_bind, ok_bind]
    dsimp only
    by_cases he : items.isEmpty = true
    · rw [if_pos he, if_pos he]; rfl
    · rw [if_neg he, if_neg he]
      have := resort_over ({ fs with items := fs.items ++ items, rows := relabel (fs.rows ++ items.map (fs.itemRow 0)) } : Flipset K) A b
      exact congrArg Except.ok this

/-- What is compared of two flipsets after a call. -/
structure FlipTwin (ext : Ext K) (fs fs2 : Flipset K) : Prop where
  same : ∃ A b, fs2 = fs.over A b
  aset : fs2.aset.norm ext = fs.aset.norm ext
  builder : (fs.builder = none ∧ fs2.builder = none) ∨
    ∃ b A, fs.builder = some b ∧ fs2.builder = some (b.onSet A) ∧ A.norm ext = b.aset.norm ext

theorem populateEnd_twin {fs fs2 fs' : Flipset K} {et : EnumType} {fuel : ℕ} {total : Option ℕ} {res : Except Err Unit}
    (hb : b.Reachable ext) (hA : A.norm ext = b.aset.norm ext) (hs : ∃ A b, fs2 = fs.over A b) (hn : fs2.aset.norm ext = fs.aset.norm ext)
    (hfb : fs.builder = some b) (hfb2 : fs2.builder = some (b.onSet A))
    (h : populateEnd Flipset.add o et fuel total fs b = some (fs', res)) :
    ∃ fs2', populateEnd Flipset.add o et fuel total fs2 (b.onSet A) = some (fs2', res) ∧ FlipTwin ext fs' fs2' := by
  obtain ⟨A0, b0, rfl⟩ := hs
  unfold populateEnd at h ⊢
  rw [populate_onSet]
  rcases hp : b.populate o et fuel total with er | _ | ⟨b1, infos⟩
  · rw [hp] at h; cases h
    exact ⟨_, rfl, ⟨_, _, rfl⟩, hn, Or.inr ⟨b, A, hfb, hfb2, hA⟩⟩
  · rw [hp] at h; cases h
  · rw [hp] at h
    dsimp only at h
    have hk : b1.aset.norm ext = b.aset.norm ext := (Builder.Used.populate .refl hp |>.setup hb).2.aset
    have hadd := add_over ({ fs with builder := some b1 } : Flipset K) infos A0 (some (b1.onSet A))
    have e : ({ fs with builder := some b1 } : Flipset K).over A0 (some (b1.onSet A)) =
      { fs.over A0 b0 with builder := some (b1.onSet A) } := rfl
    rw [e] at hadd
    have hmap : (Except.map (Option.map (onSetRes A)) (.ok (some (b1, infos))) : Except Err (Option (Builder K × List (Info K)))) =
      .ok (some (b1.onSet A, infos)) := rfl
    rw [hmap]
    dsimp only
    rw [hadd]
    rcases ha : ({ fs with builder := some b1 } : Flipset K).add infos with er | g
    · rw [ha] at h; cases h
      exact ⟨_, rfl, ⟨A0, _, rfl⟩, hn, Or.inr ⟨b1, A, rfl, rfl, hA.trans hk.symm⟩⟩
    · rw [ha] at h; cases h
      obtain ⟨g1, g2⟩ := add_parts ha
      refine ⟨_, rfl, ⟨A0, _, rfl⟩, ?_, Or.inr ⟨b1, A, g2, rfl, hA.trans hk.symm⟩⟩
      rw [g1]; exact hn

theorem populate_eq (fs : Flipset K) (o : Oracle K) (fuel : ℕ) (total : Option ℕ) (et : EnumType) (ct : CostType) :
    fs.populate ext o fuel total et ct =
      match fs.builder with
      | some b => populateEnd Flipset.add o et fuel total fs b
      | none =>
        match mkBuilder fs.backend ct fs.aset fs.coefs fs.intercept with
        | .error er => some (fs, .error er)
        | .ok c =>
          match c.setX ext fs.x with
          | (b, .error er) => some ({ fs with aset := b.aset }, .error er)
          | (b, .ok ()) => populateEnd Flipset.add o et fuel total { fs with aset := b.aset, builder := some b } b := by
  unfold Flipset.populate populateEnd
  cases fs.builder with
  | some b => rfl
  | none =>
    dsimp only
    cases hm : mkBuilder fs.backend ct fs.aset fs.coefs fs.intercept with
    | error er => rfl
    | ok c =>
      dsimp only
      rcases hx : c.setX ext fs.x with ⟨b, er | u⟩ <;> rfl

/-- Builders made for aligned sets that look the same. -/
theorem mkBuilder_twin {be : Backend} {ct : CostType} {w : List K} {t : K} (hk : A.alignmentKnown = true) (hn : A2.norm ext = A.norm ext)
    : (∃ er, mkBuilder be ct A w t = .error er ∧ mkBuilder be ct A2 w t = .error er) ∨
      ∃ b, mkBuilder be ct A w t = .ok b ∧ b.aset = A ∧ mkBuilder be ct A2 w t = .ok (b.onSet A2) := by
  have hk2 : A2.alignmentKnown = true := by rw [← norm_alignmentKnown (ext := ext), hn, norm_alignmentKnown]; exact hk
  have hnames : A2.names = A.names := by have := congrArg ActionSet.names hn; exact this
  have hel : A2.elems.map (Elem.fillCache ext) = A.elems.map (Elem.fillCache ext) := by
    have := congrArg ActionSet.elems hn; exact this
  have hlen : A2.elems.length = A.elems.length := by simpa using congrArg List.length hel
  have hname : A2.elems.map (·.name) = A.elems.map (·.name) := by
    have hc : ∀ B : ActionSet K, B.elems.map (·.name) = (B.elems.map (Elem.fillCache ext)).map (·.name) := by
      intro B
      rw [List.map_map]
      refine List.map_congr_left fun e _ => ?_
      obtain ⟨c, hc⟩ := fillCache_eq ext e
      dsimp only [Function.comp]
      rw [hc]
    rw [hc A2, hel, ← hc A]
  have hact : ∀ j : ℕ, A2.elems[j]?.map (·.actionable) = A.elems[j]?.map (·.actionable) := by
    intro j
    have hc : ∀ B : ActionSet K, B.elems[j]?.map (·.actionable) = (B.elems.map (Elem.fillCache ext))[j]?.map (·.actionable) := by
      intro B
      rw [List.getElem?_map]
      cases B.elems[j]? with
      | none => rfl
      | some e =>
        obtain ⟨c, hc⟩ := fillCache_eq ext e
        dsimp only [Option.map]
        rw [hc]
    rw [hc A2, hel, ← hc A]
  unfold mkBuilder
  rw [hnames]
  by_cases hl : A.names.length = w.length
  · rw [decide_eq_true hl, pyAssert_true, ok_bind, ok_bind, if_pos hk, if_pos hk2, ok_bind, ok_bind]
    refine Or.inr ⟨_, rfl, rfl, ?_⟩
    unfold Builder.onSet
    dsimp only
    have hf : ((List.range A2.elems.length).filter fun j => match A2.elems[j]? with
        | some e => e.actionable
        | none => false) = (List.range A.elems.length).filter fun j => match A.elems[j]? with
        | some e => e.actionable
        | none => false := by
      rw [hlen]
      refine List.filter_congr fun j _ => ?_
      have := hact j
      cases h1 : A2.elems[j]? <;> cases h2 : A.elems[j]? <;> rw [h1, h2] at this
      · cases this
      · cases this
      · exact Option.some.inj this
    refine congrArg Except.ok ?_
    rw [Builder.mk.injEq]
    exact ⟨rfl, rfl, rfl, rfl, hname, hf, rfl, rfl, congrArg List.length hf, rfl, rfl, rfl, rfl, rfl⟩
  · refine Or.inl ⟨.assertion, ?_, ?_⟩
    · rw [decide_eq_false hl]; rfl
    · rw [decide_eq_false hl]; rfl

/-- Flipsets with builders that look the same are populated alike. -/
theorem populate_twin {fs fs2 fs' : Flipset K} {et : EnumType} {ct : CostType} {fuel : ℕ} {total : Option ℕ} {res : Except Err Unit}
    (ht : FlipTwin ext fs fs2) (hA : fs.aset.Reachable ext) (hA2 : fs2.aset.Reachable ext) (hk : fs.aset.alignmentKnown = true)
    (hb : ∀ b, fs.builder = some b → b.Reachable ext)
    (h : fs.populate ext o fuel total et ct = some (fs', res)) :
    ∃ fs2', fs2.populate ext o fuel total et ct = some (fs2', res) ∧ FlipTwin ext fs' fs2' := by
  rw [populate_eq] at h ⊢
  rcases ht.builder with ⟨h1, h2⟩ | ⟨b, B, h1, h2, h3⟩
  · rw [h1] at h
    rw [h2]
    dsimp only at h ⊢
    obtain ⟨A0, b0, rfl⟩ := ht.same
    have hn : A0.norm ext = fs.aset.norm ext := ht.aset
    have e1 : (fs.over A0 b0).backend = fs.backend := rfl
    have e2 : (fs.over A0 b0).aset = A0 := rfl
    have e3 : (fs.over A0 b0).coefs = fs.coefs := rfl
    have e4 : (fs.over A0 b0).intercept = fs.intercept := rfl
    have e5 : (fs.over A0 b0).x = fs.x := rfl
    rw [e1, e2, e3, e4, e5]
    rw [e2] at hA2
    rcases mkBuilder_twin (be := fs.backend) (ct := ct) (w := fs.coefs) (t := fs.intercept) hk hn with ⟨er, g1, g2⟩ | ⟨c, g1, g2, g3⟩
    · rw [g1] at h; rw [g2]
      cases h
      exact ⟨_, rfl, ht⟩
    · have hc : c.Reachable ext := .mk hA g1
      have hc2 : (c.onSet A0).Reachable ext := .mk hA2 g3
      rw [g1] at h; rw [g3]
      dsimp only at h ⊢
      obtain ⟨A1, q1, q2⟩ := setX_onSet hc.ok hc2.ok (by rw [g2]; exact hn) fs.x
      have hr := Builder.Reachable.setX fs.x hc
      rw [q1]
      rcases hx : c.setX ext fs.x with ⟨b, er | u⟩
      · rw [hx] at h q2; cases h
        exact ⟨_, rfl, ⟨A1, none, rfl⟩, q2, Or.inl ⟨rfl, rfl⟩⟩
      · cases u
        rw [hx] at h q2 hr
        dsimp only at h q2 ⊢
        exact populateEnd_twin (fs := { fs with aset := b.aset, builder := some b })
          (fs2 := { fs.over A0 b0 with aset := A1, builder := some (b.onSet A1) }) hr q2 ⟨A1, some (b.onSet A1), rfl⟩ q2 rfl rfl h
  · rw [h1] at h
    rw [h2]
    exact populateEnd_twin (hb b h1) h3 ht.same ht.aset h1 h2 h

end Recourse
