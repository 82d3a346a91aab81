import Verif.Model.Session
import Verif.Props.Use

/-!
# Sessions: several objects that share action sets and builders (C111)
-/

set_option linter.unusedSectionVars false

namespace Recourse

variable {K : Type} [Field K] [LinearOrder K] [IsStrictOrderedRing K] [FloorRing K]

variable {ext : Ext K} {A A' : ActionSet K} {b b' b2 b2' : Builder K} {S S' S'' S2 : Session K} {r : BRef} {k : ℕ} {rep : Reply K}

/-! ## Specification -/

/-- States a program can reach, with any calls, any solvers and any data. -/
def Session.Reachable (ext : Ext K) (S : Session K) : Prop := ∃ l reps, Session.run ext Session.empty l = some (S, reps)

/-- The builder a call uses: its own, that of the auditor, or that of the flipset. -/
def Session.uses (S : Session K) : Call K → Option BRef
  | .builder r _ => some r
  | .audit a _ _ _ => some (.ofAuditor a)
  | .populate f _ _ _ _ _ => (S.flipsets f).map fun p => p.2.1
  | .sort f _ _ => (S.flipsets f).map fun p => p.2.1
  | _ => none

/-- The call does not change what the action set `A` offers: it asks for percentiles, or aligns the set with a classifier that wants the
directions the set has. -/
def SetCall.Harmless (A : ActionSet K) : SetCall K → Prop
  | .percentile _ => True
  | .align w => A.setAlignment w = .ok A
  | _ => False

/-- The call spares the action set `A` with name `k` and the builder `r`: it does not change the set, does not make an auditor for it (which
aligns the set anew) unless the classifier wants the directions the set has, and does not make a flipset for the builder `r`. -/
def Call.Spares (A : ActionSet K) (k : ℕ) (r : BRef) : Call K → Prop
  | .set k' c => k' ≠ k ∨ c.Harmless A
  | .newAuditor _ k' _ w _ => k' ≠ k ∨ A.setAlignment w = .ok A
  | .newFlipset _ _ r' _ _ _ _ => r' ≠ some r
  | _ => True

/-- The builder `r` works on the action set `k`: it is there, or a flipset is there that will make it, and every flipset that uses it
is for this set. -/
structure Session.WorksOn (S : Session K) (r : BRef) (k : ℕ) : Prop where
  builder : ∀ k' b, S.builders r = some (k', b) → k' = k
  made : S.builders r = none → ∃ f p, r = .ofFlipset f ∧ S.flipsets f = some p
  flipset : ∀ f k' fs, S.flipsets f = some (k', r, fs) → k' = k

/-- The replies to the calls that satisfy `p`. -/
def repliesTo (p : Call K → Bool) : List (Call K) → List (Reply K) → List (Reply K)
  | c :: l, rep :: reps => if p c then rep :: repliesTo p l reps else repliesTo p l reps
  | _, _ => []

/-! ## Calls to sets and builders -/

theorem setYDesired_names {y : Int} (h : A.setYDesired y = .ok A') : A'.names = A.names := by
  unfold ActionSet.setYDesired at h
  obtain ⟨-, h⟩ := pyAssert_bind_ok.mp h
  dsimp only at h
  split_ifs at h <;> · rw [← Except.ok.inj h]

theorem setAttr_names (A : ActionSet K) (attr : String) (v : PyVal K) : (A.setAttr attr v).1.names = A.names := by
  unfold ActionSet.setAttr
  split_ifs
  · split <;> rfl
  · split
    · split
      · rename_i h
        exact setYDesired_names h
      · rfl
    · rfl
  · split <;> rfl

/-- Calls to a set lead from reachable states to reachable states and keep the names. -/
theorem ActionSet.call_ok (hA : A.Reachable ext) (c : SetCall K) :
    (A.call ext c).Reachable ext ∧ (A.call ext c).names = A.names := by
  cases c with
  | align w =>
    unfold ActionSet.call
    dsimp only
    cases h : A.setAlignment w with
    | error e => exact ⟨hA, rfl⟩
    | ok A' => exact ⟨.align hA h, by rw [(setAlignment_ok h).2]⟩
  | setY y =>
    unfold ActionSet.call
    dsimp only
    cases h : A.setYDesired y with
    | error e => exact ⟨hA, rfl⟩
    | ok A' => exact ⟨.setY hA h, setYDesired_names h⟩
  | addConstraint names lb ub id =>
    unfold ActionSet.call
    dsimp only
    cases h : A.addConstraint names lb ub id with
    | error e => exact ⟨hA, rfl⟩
    | ok p =>
      obtain ⟨A', i⟩ := p
      refine ⟨.addC hA h, ?_⟩
      unfold ActionSet.addConstraint at h
      obtain ⟨⟨c, j⟩, -, h⟩ := bind_ok_iff.mp h
      cases h; rfl
  | removeConstraint id =>
    unfold ActionSet.call
    dsimp only
    cases h : A.removeConstraint id with
    | error e => exact ⟨hA, rfl⟩
    | ok A' =>
      refine ⟨.remC hA h, ?_⟩
      unfold ActionSet.removeConstraint at h
      obtain ⟨c, -, h⟩ := bind_ok_iff.mp h
      cases h; rfl
  | setAttr attr v => exact ⟨.setAttr attr v hA, setAttr_names A attr v⟩
  | setSlice idx attr v =>
    refine ⟨.setSlice idx attr v hA, ?_⟩
    unfold ActionSet.call ActionSet.setSliceAttr
    dsimp only
    split
    · rfl
    · split_ifs
      · split <;> rfl
      · rfl
  | setElem n attr v =>
    refine ⟨.setElem n attr v hA, ?_⟩
    unfold ActionSet.call ActionSet.setElemAttr
    dsimp only
    split
    · rfl
    · split <;> rfl
  | updateGrid j =>
    unfold ActionSet.call
    dsimp only
    cases hj : A.elems[j]? with
    | none => exact ⟨hA, rfl⟩
    | some e =>
      dsimp only
      cases h : e.updateGrid with
      | error er => exact ⟨hA, rfl⟩
      | ok e' => exact ⟨.updateGrid hA hj h, rfl⟩
  | percentile j =>
    unfold ActionSet.call
    dsimp only
    cases hj : A.elems[j]? with
    | none => exact ⟨hA, rfl⟩
    | some e => exact ⟨.percentile hA hj, rfl⟩
  | interp j left right =>
    unfold ActionSet.call
    dsimp only
    cases hj : A.elems[j]? with
    | none => exact ⟨hA, rfl⟩
    | some e =>
      dsimp only
      cases h : e.updateInterpolator ext left right with
      | error er => exact ⟨hA, rfl⟩
      | ok e' => exact ⟨.interp hA hj h, rfl⟩
  | replace n values bounds vt act st sd ss =>
    unfold ActionSet.call
    dsimp only
    cases h : mkElem n values bounds vt act st sd ss with
    | error er => exact ⟨hA, rfl⟩
    | ok e =>
      refine ⟨.setItem n hA (.mk h) (mkElem_spec h).2.2.2.1, ?_⟩
      unfold ActionSet.setItem
      dsimp only
      split_ifs <;> rfl

/-- What calls leave as it is in a builder: the classifier, the cost type, and the looks of the action set. -/
structure Kin (ext : Ext K) (b b' : Builder K) : Prop where
  coefs : b'.coefs = b.coefs
  intercept : b'.intercept = b.intercept
  costType : b'.costType = b.costType
  aset : b'.aset.norm ext = b.aset.norm ext

theorem Kin.names (h : Kin ext b b') : b'.aset.names = b.aset.names := by
  have := congrArg ActionSet.names h.aset; exact this

theorem SameSetup.kin (h : SameSetup ext b b') : Kin ext b b' := ⟨h.coefs, h.intercept, h.costType, h.aset⟩

theorem setItemLimits_keeps (b : Builder K) (lo hi : Option Int) : (b.setItemLimits lo hi).1.coefs = b.coefs ∧
    (b.setItemLimits lo hi).1.intercept = b.intercept ∧ (b.setItemLimits lo hi).1.costType = b.costType ∧
    (b.setItemLimits lo hi).1.aset = b.aset := by
  unfold Builder.setItemLimits
  cases lo with
  | none => exact ⟨rfl, rfl, rfl, rfl⟩
  | some lo =>
    cases hi with
    | none => exact ⟨rfl, rfl, rfl, rfl⟩
    | some hi =>
      dsimp only
      repeat' split
      all_goals exact ⟨rfl, rfl, rfl, rfl⟩

theorem setMinItems_keeps (b : Builder K) (k : Option Int) : (b.setMinItems k).1.coefs = b.coefs ∧
    (b.setMinItems k).1.intercept = b.intercept ∧ (b.setMinItems k).1.costType = b.costType ∧ (b.setMinItems k).1.aset = b.aset := by
  unfold Builder.setMinItems
  repeat' split
  all_goals exact ⟨rfl, rfl, rfl, rfl⟩

theorem setMaxItems_keeps (b : Builder K) (k : Option Int) : (b.setMaxItems k).1.coefs = b.coefs ∧
    (b.setMaxItems k).1.intercept = b.intercept ∧ (b.setMaxItems k).1.costType = b.costType ∧ (b.setMaxItems k).1.aset = b.aset := by
  unfold Builder.setMaxItems
  repeat' split
  all_goals exact ⟨rfl, rfl, rfl, rfl⟩

/-- Calls to a builder lead from reachable states to reachable states. -/
theorem Builder.call_ok (hb : b.Reachable ext) {c : BuilderCall K} (h : b.call ext c = some (b', rep)) :
    b'.Reachable ext ∧ Kin ext b b' := by
  cases c with
  | setX x =>
    unfold Builder.call at h
    cases h
    exact ⟨.setX x hb, (SameSetup.setX hb.ok x).kin⟩
  | fit o =>
    unfold Builder.call at h
    dsimp only at h
    cases hf : b.fit o with
    | error er => rw [hf] at h; cases h; exact ⟨hb, rfl, rfl, rfl, rfl⟩
    | ok p =>
      rw [hf] at h; cases h
      exact ⟨.fit hb hf, (Builder.Used.fit .refl hf |>.setup hb).2.kin⟩
  | populate o et fuel total =>
    unfold Builder.call at h
    dsimp only at h
    cases hf : b.populate o et fuel total with
    | error er => rw [hf] at h; cases h; exact ⟨hb, rfl, rfl, rfl, rfl⟩
    | ok p =>
      rw [hf] at h
      cases p with
      | none => cases h
      | some p => cases h; exact ⟨.populate hb hf, (Builder.Used.populate .refl hf |>.setup hb).2.kin⟩
  | limits lo hi =>
    unfold Builder.call at h
    cases h
    obtain ⟨h1, h2, h3, h4⟩ := setItemLimits_keeps b lo hi
    exact ⟨.limits lo hi hb, h1, h2, h3, by rw [h4]⟩
  | minItems k =>
    unfold Builder.call at h
    cases h
    obtain ⟨h1, h2, h3, h4⟩ := setMinItems_keeps b k
    exact ⟨.minItems k hb, h1, h2, h3, by rw [h4]⟩
  | maxItems k =>
    unfold Builder.call at h
    cases h
    obtain ⟨h1, h2, h3, h4⟩ := setMaxItems_keeps b k
    exact ⟨.maxItems k hb, h1, h2, h3, by rw [h4]⟩

/-! ## Reachable sessions -/

/-- What holds in every reachable session. -/
structure Session.OK (ext : Ext K) (S : Session K) : Prop where
  sets : ∀ k A, S.sets k = some A → A.Reachable ext
  builders : ∀ r k b, S.builders r = some (k, b) → ∃ A, S.sets k = some A ∧ ({ b with aset := A } : Builder K).Reachable ext
  auditors : ∀ a w t, S.auditors a = some (w, t) → ∃ k b, S.builders (.ofAuditor a) = some (k, b) ∧
    ∀ A, ({ b with aset := A } : Builder K).Reachable ext → Auditor.Reachable ext ⟨w, t, { b with aset := A }⟩
  flipsets : ∀ f k r fs, S.flipsets f = some (k, r, fs) → (∃ A, S.sets k = some A) ∧ (S.builders r = none → r = .ofFlipset f) ∧
    ∃ ord, ∀ A b, ({ fs with aset := A, builder := b } : Flipset K).Reachable ext ord

theorem Session.OK.empty : (Session.empty : Session K).OK ext := by
  refine ⟨?_, ?_, ?_, ?_⟩ <;> unfold Session.empty
  · intro k A h; cases h
  · intro r k b h; cases h
  · intro a w t h; cases h
  · intro f k r fs h; cases h

theorem Session.OK.setUpdate (h : S.OK ext) (hk : S.sets k = some A) (hr : A'.Reachable ext) (hn : A'.names = A.names) :
    ({ S with sets := Function.update S.sets k (some A') } : Session K).OK ext := by
  refine ⟨?_, ?_, h.auditors, ?_⟩
  · intro k' B hB
    dsimp only at hB
    by_cases e : k' = k
    · subst e; rw [Function.update_self] at hB; cases hB; exact hr
    · rw [Function.update_of_ne e] at hB; exact h.sets k' B hB
  · intro r k' b hb
    obtain ⟨B, h1, h2⟩ := h.builders r k' b hb
    dsimp only
    by_cases e : k' = k
    · subst e
      rw [hk] at h1; cases h1
      exact ⟨A', Function.update_self .., Builder.Reachable.user (b := { b with aset := A }) h2 hr hn⟩
    · exact ⟨B, by rw [Function.update_of_ne e]; exact h1, h2⟩
  · intro f k' r fs hf
    obtain ⟨⟨B, h1⟩, h2⟩ := h.flipsets f k' r fs hf
    refine ⟨?_, h2⟩
    dsimp only
    by_cases e : k' = k
    · subst e; exact ⟨A', Function.update_self ..⟩
    · exact ⟨B, by rw [Function.update_of_ne e]; exact h1⟩

theorem Session.builder_some {b : Builder K} (h : S.builder r = some b) : ∃ k b0 A, S.builders r = some (k, b0) ∧ S.sets k = some A ∧
    b = { b0 with aset := A } := by
  unfold Session.builder at h
  rcases hb : S.builders r with _ | ⟨k, b0⟩
  · rw [hb] at h; cases h
  · rw [hb] at h
    dsimp only at h
    rcases hA : S.sets k with _ | A
    · rw [hA] at h; cases h
    · rw [hA] at h; cases h; exact ⟨k, b0, A, rfl, hA, rfl⟩

theorem Session.builder_of {b0 : Builder K} (h : S.builders r = some (k, b0)) (hA : S.sets k = some A) :
    S.builder r = some { b0 with aset := A } := by
  unfold Session.builder
  rw [h]; dsimp only; rw [hA]

/-- A builder is added or replaced, and its set is changed accordingly. -/
theorem Session.OK.put (h : S.OK ext) (hk : S.sets k = some A) (hb : b.Reachable ext) (hn : b.aset.names = A.names)
    (ha : ∀ a w t, r = .ofAuditor a → S.auditors a = some (w, t) →
      ∀ B, ({ b with aset := B } : Builder K).Reachable ext → Auditor.Reachable ext ⟨w, t, { b with aset := B }⟩) :
    ({ S with sets := Function.update S.sets k (some b.aset), builders := Function.update S.builders r (some (k, b)) } :
      Session K).OK ext := by
  have h1 := h.setUpdate hk hb.ok.aset hn
  refine ⟨h1.sets, ?_, ?_, ?_⟩
  · intro r' k' c hc
    dsimp only at hc ⊢
    by_cases e : r' = r
    · subst e
      rw [Function.update_self] at hc
      cases hc
      exact ⟨b.aset, Function.update_self .., hb⟩
    · rw [Function.update_of_ne e] at hc
      exact h1.builders r' k' c hc
  · intro a w t hw
    dsimp only at hw ⊢
    by_cases e : r = .ofAuditor a
    · subst e
      exact ⟨k, b, Function.update_self .., ha a w t rfl hw⟩
    · obtain ⟨k', c, g1, g2⟩ := h1.auditors a w t hw
      exact ⟨k', c, by rw [Function.update_of_ne (Ne.symm e)]; exact g1, g2⟩
  · intro f k' r' fs hf
    obtain ⟨g1, g2, g3⟩ := h1.flipsets f k' r' fs hf
    refine ⟨g1, fun hn => g2 ?_, g3⟩
    dsimp only at hn ⊢
    by_cases e : r' = r
    · subst e; rw [Function.update_self] at hn; cases hn
    · rwa [Function.update_of_ne e] at hn

theorem Session.OK.store (h : S.OK ext) (hS : S.builder r = some b) (hb : b'.Reachable ext) (hk : Kin ext b b') :
    (S.store r b').OK ext := by
  obtain ⟨k, b0, A, h1, h2, rfl⟩ := Session.builder_some hS
  unfold Session.store
  rw [h1]
  dsimp only
  refine h.put h2 hb hk.names fun a w t e hw B hB => ?_
  subst e
  obtain ⟨k', c, g1, g2⟩ := h.auditors a w t hw
  rw [h1] at g1; cases g1
  obtain ⟨A', q1, q2⟩ := h.builders _ k b0 h1
  rw [h2] at q1; cases q1
  exact .user (g2 A q2) hB hk.coefs hk.intercept hk.costType

theorem Session.OK.flip (h : S.OK ext) {f : ℕ} {fs : Flipset K} (hk : ∃ A, S.sets k = some A) (hr : S.builders r = none → r = .ofFlipset f)
    (hfs : ∃ ord, ∀ A b, ({ fs with aset := A, builder := b } : Flipset K).Reachable ext ord) :
    ({ S with flipsets := Function.update S.flipsets f (some (k, r, fs)) } : Session K).OK ext := by
  refine ⟨h.sets, h.builders, h.auditors, ?_⟩
  intro f' k' r' fs' hf
  dsimp only at hf ⊢
  by_cases e : f' = f
  · subst e; rw [Function.update_self] at hf; cases hf; exact ⟨hk, hr, hfs⟩
  · rw [Function.update_of_ne e] at hf; exact h.flipsets f' k' r' fs' hf

/-- The set of a new builder. -/
theorem mkBuilder_names {be : Backend} {ct : CostType} {w : List K} {t : K} (h : mkBuilder be ct A w t = .ok b) :
    b.aset.names = A.names := by
  have := mkBuilder_aligned h
  unfold AlignedWith at this
  split_ifs at this
  · rw [this]
  · rw [(setAlignment_ok this).2]

theorem resort_parts (fs : Flipset K) : fs.resort.aset = fs.aset ∧ fs.resort.builder = fs.builder := by
  unfold Flipset.resort
  split_ifs <;> exact ⟨rfl, rfl⟩

theorem add_parts {fs fs' : Flipset K} {l : List (Info K)} (h : fs.add l = .ok fs') : fs'.aset = fs.aset ∧ fs'.builder = fs.builder := by
  obtain ⟨-, rfl⟩ := flipAdd_ok h
  split_ifs
  · exact ⟨rfl, rfl⟩
  · exact resort_parts _

/-- What `populate` of a flipset does to a builder it has. -/
theorem populate_old {fs fs' : Flipset K} {o : Oracle K} {fuel : ℕ} {total : Option ℕ} {et : EnumType} {ct : CostType} {res : Except Err Unit}
    (hb : fs.builder = some b) (h : fs.populate ext o fuel total et ct = some (fs', res)) :
    fs'.aset = fs.aset ∧ ∃ b', fs'.builder = some b' ∧ b.Used ext b' := by
  have made : ∀ {A' : ActionSet K} {b0 : Builder K}, fs.Made ext ct A' b0 → A' = fs.aset ∧ b0 = b := by
    rintro A' b0 (⟨h1, h2⟩ | ⟨h1, -⟩)
    · rw [hb] at h1; cases h1; exact ⟨h2, rfl⟩
    · rw [hb] at h1; cases h1
  rcases populate_cases h with ⟨er, -, -, h1, -⟩ | ⟨er, c, b0, -, h1, -⟩ | ⟨er, A', b0, -, hm, -, rfl⟩ |
      ⟨er, A', b0, c, infos, -, hm, hp, -, rfl⟩ | ⟨A', b0, c, infos, -, hm, hp, ha⟩
  · rw [hb] at h1; cases h1
  · rw [hb] at h1; cases h1
  · obtain ⟨rfl, rfl⟩ := made hm
    exact ⟨rfl, b0, rfl, .refl⟩
  · obtain ⟨rfl, rfl⟩ := made hm
    exact ⟨rfl, c, rfl, .populate .refl hp⟩
  · obtain ⟨rfl, rfl⟩ := made hm
    obtain ⟨g1, g2⟩ := add_parts ha
    exact ⟨g1, c, g2, .populate .refl hp⟩

/-- What the first `populate` of a flipset does. -/
theorem populate_new {fs fs' : Flipset K} {o : Oracle K} {fuel : ℕ} {total : Option ℕ} {et : EnumType} {ct : CostType} {res : Except Err Unit}
    (hA : fs.aset.Reachable ext) (hb : fs.builder = none) (h : fs.populate ext o fuel total et ct = some (fs', res)) :
    fs'.aset.Reachable ext ∧ fs'.aset.names = fs.aset.names ∧
    (fs.aset.alignmentKnown = true → fs'.aset.norm ext = fs.aset.norm ext) ∧
    ∀ b', fs'.builder = some b' → b'.Reachable ext ∧ b'.aset = fs'.aset := by
  have key : ∀ {c : Builder K}, mkBuilder fs.backend ct fs.aset fs.coefs fs.intercept = .ok c →
      (c.setX ext fs.x).1.Reachable ext ∧ (c.setX ext fs.x).1.aset.names = fs.aset.names ∧
      (fs.aset.alignmentKnown = true → (c.setX ext fs.x).1.aset.norm ext = fs.aset.norm ext) := by
    intro c hc
    have hr : c.Reachable ext := .mk hA hc
    have hs := (SameSetup.setX hr.ok fs.x).kin
    refine ⟨.setX _ hr, by rw [hs.names, mkBuilder_names hc], fun hk => ?_⟩
    have h3 := mkBuilder_aligned hc
    unfold AlignedWith at h3
    rw [if_pos hk] at h3
    rw [hs.aset, h3]
  have made : ∀ {A' : ActionSet K} {b0 : Builder K}, fs.Made ext ct A' b0 → b0.Reachable ext ∧ b0.aset = A' ∧ A'.names = fs.aset.names ∧
      (fs.aset.alignmentKnown = true → A'.norm ext = fs.aset.norm ext) := by
    rintro A' b0 (⟨h1, h2⟩ | ⟨-, c, h2, h3, rfl⟩)
    · rw [hb] at h1; cases h1
    · have := key h2
      rw [h3] at this
      exact ⟨this.1, rfl, this.2⟩
  rcases populate_cases h with ⟨er, -, rfl, -⟩ | ⟨er, c, b0, -, -, h2, h3, rfl⟩ | ⟨er, A', b0, -, hm, -, rfl⟩ |
      ⟨er, A', b0, c, infos, -, hm, hp, -, rfl⟩ | ⟨A', b0, c, infos, -, hm, hp, ha⟩
  · exact ⟨hA, rfl, fun _ => rfl, fun b' hb' => by rw [hb] at hb'; cases hb'⟩
  · have := key h2
    rw [h3] at this
    exact ⟨this.1.ok.aset, this.2.1, this.2.2, fun b' hb' => by rw [hb] at hb'; cases hb'⟩
  · obtain ⟨g1, rfl, g2, g3⟩ := made hm
    exact ⟨g1.ok.aset, g2, g3, fun b' hb' => by cases hb'; exact ⟨g1, rfl⟩⟩
  · obtain ⟨g1, rfl, g2, g3⟩ := made hm
    obtain ⟨-, -, hl⟩ := populate_ok hp
    refine ⟨g1.ok.aset, g2, g3, fun b' hb' => ?_⟩
    cases hb'
    exact ⟨.populate g1 hp, (SameFixed.popLoop hl).aset⟩
  · obtain ⟨g1, rfl, g2, g3⟩ := made hm
    obtain ⟨-, -, hl⟩ := populate_ok hp
    obtain ⟨q1, q2⟩ := add_parts ha
    rw [q1, q2]
    refine ⟨g1.ok.aset, g2, g3, fun b' hb' => ?_⟩
    cases hb'
    exact ⟨.populate g1 hp, (SameFixed.popLoop hl).aset⟩

/-! ## What calls do, case by case -/

/-- A call to a builder. -/
theorem call_builder {c : BuilderCall K} (h : S.call ext (.builder r c) = some (S', rep)) :
    ∃ b b', S.builder r = some b ∧ b.call ext c = some (b', rep) ∧ S' = S.store r b' := by
  unfold Session.call at h
  dsimp only at h
  rcases hb : S.builder r with _ | b
  · rw [hb] at h; cases h
  · rw [hb] at h
    dsimp only at h
    rcases hc : b.call ext c with _ | ⟨b', rep'⟩
    · rw [hc] at h; cases h
    · rw [hc] at h; cases h; exact ⟨b, b', rfl, hc, rfl⟩

/-- The reply of an audit. -/
def Reply.ofAudit : Except Err (List (ℕ × AuditRow K)) → Reply K
  | .ok l => .audit l
  | .error er => .failed er

theorem call_audit {a : ℕ} {o : Oracle K} {X : List (ℕ × List K)} {y : Int} (h : S.call ext (.audit a o X y) = some (S', rep)) :
    ∃ w t b, S.auditors a = some (w, t) ∧ S.builder (.ofAuditor a) = some b ∧
      rep = .ofAudit ((⟨w, t, b⟩ : Auditor K).audit ext o X y).2 ∧
      S' = S.store (.ofAuditor a) ((⟨w, t, b⟩ : Auditor K).audit ext o X y).1.builder := by
  unfold Session.call Session.auditor at h
  dsimp only at h
  rcases hw : S.auditors a with _ | ⟨w, t⟩
  · rw [hw] at h; cases h
  rcases hb : S.builder (.ofAuditor a) with _ | b
  · rw [hw, hb] at h; cases h
  rw [hw, hb] at h
  dsimp only at h
  refine ⟨w, t, b, rfl, rfl, ?_⟩
  rcases hx : (⟨w, t, b⟩ : Auditor K).audit ext o X y with ⟨ad', er | l⟩
  · rw [hx] at h; cases h; exact ⟨rfl, rfl⟩
  · rw [hx] at h; cases h; exact ⟨rfl, rfl⟩

theorem call_populate {f : ℕ} {o : Oracle K} {fuel : ℕ} {total : Option ℕ} {et : EnumType} {ct : CostType}
    (h : S.call ext (.populate f o fuel total et ct) = some (S', rep)) :
    ∃ k r fs A fs' res, S.flipsets f = some (k, r, fs) ∧ S.sets k = some A ∧
      ({ fs with aset := A, builder := S.builder r } : Flipset K).populate ext o fuel total et ct = some (fs', res) ∧
      S' = S.storeFlip f k r fs' ∧ rep = .table res fs'.items fs'.rows := by
  unfold Session.call Session.flipset at h
  dsimp only at h
  rcases hf : S.flipsets f with _ | ⟨k, r, fs⟩
  · rw [hf] at h; cases h
  rw [hf] at h
  dsimp only at h
  rcases hA : S.sets k with _ | A
  · rw [hA] at h; cases h
  rw [hA] at h
  dsimp only at h
  rcases hp : ({ fs with aset := A, builder := S.builder r } : Flipset K).populate ext o fuel total et ct with _ | ⟨fs', res⟩
  · rw [hp] at h; cases h
  · rw [hp] at h; cases h
    exact ⟨k, r, fs, A, fs', res, rfl, hA, hp, rfl, rfl⟩

theorem call_sort {f : ℕ} {cols : List SortCol} {inplace : Bool} (h : S.call ext (.sort f cols inplace) = some (S', rep)) :
    ∃ k r fs, S.flipsets f = some (k, r, fs) ∧
      ((∃ er, fs.sort cols inplace = .error er ∧ S' = S ∧ rep = .failed er) ∨
       ∃ fs', fs.sort cols inplace = .ok fs' ∧ S' = { S with flipsets := Function.update S.flipsets f (some (k, r, fs')) } ∧
        rep = .table (.ok ()) fs'.items fs'.rows) := by
  unfold Session.call at h
  dsimp only at h
  rcases hf : S.flipsets f with _ | ⟨k, r, fs⟩
  · rw [hf] at h; cases h
  rw [hf] at h
  dsimp only at h
  refine ⟨k, r, fs, rfl, ?_⟩
  rcases hs : fs.sort cols inplace with er | fs'
  · rw [hs] at h; cases h; exact Or.inl ⟨er, rfl, rfl, rfl⟩
  · rw [hs] at h; cases h; exact Or.inr ⟨fs', rfl, rfl, rfl⟩

theorem call_newSet {X : List (List K)} {names : List String} {y : Int} {custom : List (String × PyVal K)} {dflt st : PyVal K}
    (h : S.call ext (.newSet k X names y custom dflt st) = some (S', rep)) : S' = S ∨
      (S.sets k = none ∧ ∃ A, mkActionSet X names y custom dflt st = .ok A ∧ S' = { S with sets := Function.update S.sets k (some A) }) := by
  unfold Session.call at h
  dsimp only at h
  rcases hk : S.sets k with _ | A
  · rcases hm : mkActionSet X names y custom dflt st with er | A
    · rw [hk, hm] at h; cases h; exact Or.inl rfl
    · rw [hk, hm] at h; cases h; exact Or.inr ⟨rfl, A, rfl, rfl⟩
  · rw [hk] at h; cases h

theorem call_set {c : SetCall K} (h : S.call ext (.set k c) = some (S', rep)) :
    ∃ A, S.sets k = some A ∧ S' = { S with sets := Function.update S.sets k (some (A.call ext c)) } := by
  unfold Session.call at h
  dsimp only at h
  rcases hk : S.sets k with _ | A
  · rw [hk] at h; cases h
  · rw [hk] at h; cases h; exact ⟨A, rfl, rfl⟩

theorem call_newBuilder {n : ℕ} {be : Backend} {ct : CostType} {w : List K} {t : K}
    (h : S.call ext (.newBuilder n k be ct w t) = some (S', rep)) : S' = S ∨ ∃ A b, S.sets k = some A ∧ S.builders (.named n) = none ∧
      mkBuilder be ct A w t = .ok b ∧ S' = { S with
          sets := Function.update S.sets k (some b.aset)
          builders := Function.update S.builders (.named n) (some (k, b)) } := by
  unfold Session.call at h
  dsimp only at h
  rcases hk : S.sets k with _ | A
  · rw [hk] at h; cases h
  rcases hb : S.builders (.named n) with _ | p
  · rw [hk, hb] at h
    dsimp only at h
    rcases hm : mkBuilder be ct A w t with er | b
    · rw [hm] at h; cases h; exact Or.inl rfl
    · rw [hm] at h; cases h; exact Or.inr ⟨A, b, rfl, rfl, hm, rfl⟩
  · rw [hk, hb] at h; cases h

theorem call_newAuditor {a : ℕ} {be : Backend} {w : List K} {t : K}
    (h : S.call ext (.newAuditor a k be w t) = some (S', rep)) : S' = S ∨ ∃ A ad, S.sets k = some A ∧ S.builders (.ofAuditor a) = none ∧
      S.auditors a = none ∧ mkAuditor be A w t = .ok ad ∧ S' = { S with
          sets := Function.update S.sets k (some ad.builder.aset)
          builders := Function.update S.builders (.ofAuditor a) (some (k, ad.builder))
          auditors := Function.update S.auditors a (some (ad.coefs, ad.intercept)) } := by
  unfold Session.call at h
  dsimp only at h
  rcases hk : S.sets k with _ | A
  · rw [hk] at h; cases h
  rcases hb : S.builders (.ofAuditor a) with _ | p
  swap
  · rw [hk, hb] at h; cases h
  rcases ha : S.auditors a with _ | q
  swap
  · rw [hk, hb, ha] at h; cases h
  rw [hk, hb, ha] at h
  dsimp only at h
  rcases hm : mkAuditor be A w t with er | ad
  · rw [hm] at h; cases h; exact Or.inl rfl
  · rw [hm] at h; cases h; exact Or.inr ⟨A, ad, rfl, rfl, rfl, hm, rfl⟩

theorem call_newFlipset {f : ℕ} {r' : Option BRef} {be : Backend} {x w : List K} {t : K}
    (h : S.call ext (.newFlipset f k r' be x w t) = some (S', rep)) : ∃ A, S.sets k = some A ∧ S.flipsets f = none ∧
      S.builders (.ofFlipset f) = none ∧ (∀ r, r' = some r → S.builders r ≠ none) ∧
      S' = { S with flipsets := Function.update S.flipsets f (some (k, r'.getD (.ofFlipset f), mkFlipset be A x w t none)) } := by
  unfold Session.call at h
  dsimp only at h
  rcases hk : S.sets k with _ | A
  · rw [hk] at h; cases h
  rcases hf : S.flipsets f with _ | p
  swap
  · rw [hk, hf] at h; cases h
  rcases hb : S.builders (.ofFlipset f) with _ | q
  swap
  · rw [hk, hf, hb] at h; cases h
  rw [hk, hf, hb] at h
  refine ⟨A, rfl, rfl, rfl, ?_⟩
  cases r' with
  | none =>
    dsimp only at h
    cases h
    exact ⟨fun r hr => (by cases hr), rfl⟩
  | some r =>
    dsimp only [Option.getD_some] at h ⊢
    rcases hr : S.builders r with _ | q
    · rw [hr] at h; cases h
    · rw [hr] at h; cases h
      exact ⟨fun r'' h'' => by cases h''; rw [hr]; exact Option.some_ne_none _, rfl⟩

/-- Audits use the builder of the auditor. -/
theorem audit_used {ad : Auditor K} (hr : ad.builder.Reachable ext) (o : Oracle K) (X : List (ℕ × List K)) (y : Int) :
    ad.builder.Used ext (ad.audit ext o X y).1.builder := by
  rcases hx : ad.audit ext o X y with ⟨ad', er | l⟩
  · exact (audit_error hr hx).1
  · exact (audit_ok hr hx).2.2.2.1

theorem Session.OK.builder (h : S.OK ext) (hb : S.builder r = some b) : b.Reachable ext := by
  obtain ⟨k, b0, A, h1, h2, rfl⟩ := Session.builder_some hb
  obtain ⟨A', g1, g2⟩ := h.builders r k b0 h1
  rw [h2] at g1; cases g1; exact g2

theorem mkAuditor_names {be : Backend} {w : List K} {t : K} {ad : Auditor K} (h : mkAuditor be A w t = .ok ad) :
    ad.builder.aset.names = A.names ∧ ad.builder.coefs = ad.coefs := by
  unfold mkAuditor at h
  obtain ⟨A1, h1, h⟩ := bind_ok_iff.mp h
  obtain ⟨b, h2, h⟩ := bind_ok_iff.mp h
  rw [← Except.ok.inj h]
  dsimp only
  exact ⟨by rw [mkBuilder_names h2, (setAlignment_ok h1).2], (mkBuilder_parts h2).2.1⟩

/-- Every call leads from consistent sessions to consistent sessions. -/
theorem Session.OK.call (h : S.OK ext) {c : Call K} (hc : S.call ext c = some (S', rep)) : S'.OK ext := by
  cases c with
  | newSet k X names y custom dflt st =>
    rcases call_newSet hc with rfl | ⟨hn, A, hm, rfl⟩
    · exact h
    · refine ⟨?_, ?_, h.auditors, ?_⟩
      · intro k' B hB
        dsimp only at hB
        by_cases e : k' = k
        · subst e; rw [Function.update_self] at hB; cases hB; exact .mk hm
        · rw [Function.update_of_ne e] at hB; exact h.sets k' B hB
      · intro r k' b hb
        obtain ⟨B, h1, h2⟩ := h.builders r k' b hb
        refine ⟨B, ?_, h2⟩
        dsimp only
        rw [Function.update_of_ne (by rintro rfl; rw [hn] at h1; cases h1)]
        exact h1
      · intro f k' r fs hf
        obtain ⟨⟨B, h1⟩, h2⟩ := h.flipsets f k' r fs hf
        refine ⟨⟨B, ?_⟩, h2⟩
        dsimp only
        rw [Function.update_of_ne (by rintro rfl; rw [hn] at h1; cases h1)]
        exact h1
  | set k c =>
    obtain ⟨A, hk, rfl⟩ := call_set hc
    obtain ⟨g1, g2⟩ := ActionSet.call_ok (h.sets k A hk) c
    exact h.setUpdate hk g1 g2
  | newBuilder n k be ct w t =>
    rcases call_newBuilder hc with rfl | ⟨A, b, hk, hn, hm, rfl⟩
    · exact h
    · exact h.put hk (.mk (h.sets k A hk) hm) (mkBuilder_names hm) (fun a w t e => by cases e)
  | builder r c =>
    obtain ⟨b, b', hb, hb', rfl⟩ := call_builder hc
    obtain ⟨g1, g2⟩ := Builder.call_ok (h.builder hb) hb'
    exact h.store hb g1 g2
  | newAuditor a k be w t =>
    rcases call_newAuditor hc with rfl | ⟨A, ad, hk, hn, ha, hm, rfl⟩
    · exact h
    · have had : ad.Reachable ext := .mk (h.sets k A hk) hm
      have hbr := had.inv.1
      have h1 := h.put (r := .ofAuditor a) hk hbr (mkAuditor_names hm).1 (fun a' w' t' e hw => by
        cases e; rw [ha] at hw; cases hw)
      refine ⟨h1.sets, h1.builders, ?_, h1.flipsets⟩
      intro a' w' t' hw
      dsimp only at hw ⊢
      by_cases e : a' = a
      · subst e
        rw [Function.update_self] at hw
        cases hw
        exact ⟨k, ad.builder, Function.update_self .., fun B hB => Auditor.Reachable.user had hB rfl rfl rfl⟩
      · rw [Function.update_of_ne e] at hw
        exact h1.auditors a' w' t' hw
  | audit a o X y =>
    obtain ⟨w, t, b, hw, hb, -, rfl⟩ := call_audit hc
    have hu := audit_used (ad := ⟨w, t, b⟩) (h.builder hb) o X y
    obtain ⟨g1, g2⟩ := hu.setup (h.builder hb)
    exact h.store hb g1 g2.kin
  | newFlipset f k r' be x w t =>
    obtain ⟨A, hk, hf, hb, hr, rfl⟩ := call_newFlipset hc
    refine h.flip ⟨A, hk⟩ ?_ ⟨_, fun B b => .user B b (.mk be A x w t none)⟩
    intro hn
    cases r' with
    | none => rfl
    | some r => exact absurd hn (hr r rfl)
  | populate f o fuel total et ct =>
    obtain ⟨k, r, fs, A, fs', res, hf, hk, hp, rfl, -⟩ := call_populate hc
    obtain ⟨-, hr, ord, hfs⟩ := h.flipsets f k r fs hf
    have hfs' : ∃ ord, ∀ A b, ({ fs' with aset := A, builder := b } : Flipset K).Reachable ext ord :=
      ⟨ord, fun B b => .user B b (.populate (hfs A (S.builder r)) hp)⟩
    have h1 := h.flip (k := k) (r := r) (f := f) ⟨A, hk⟩ hr hfs'
    unfold Session.storeFlip
    dsimp only
    rcases hb : S.builders r with _ | ⟨k', b0⟩
    · have hbn : S.builder r = none := by unfold Session.builder; rw [hb]
      obtain ⟨g1, g2, -, g4⟩ := populate_new (h.sets k A hk) hbn hp
      rcases hb' : fs'.builder with _ | b'
      · exact h1.setUpdate hk g1 g2
      · obtain ⟨q1, q2⟩ := g4 b' hb'
        rw [← q2] at g2 ⊢
        exact h1.put hk q1 g2 (fun a w t e hw => by
          obtain ⟨k', b, q, -⟩ := h.auditors a w t hw
          rw [← e, hb] at q; cases q)
    · obtain ⟨B, hB, hbr⟩ := h.builders r k' b0 hb
      have hbs := Session.builder_of hb hB
      obtain ⟨-, b', g1, g2⟩ := populate_old hbs hp
      rw [g1]
      dsimp only
      obtain ⟨q1, q2⟩ := g2.setup hbr
      have hbs' : ({ S with flipsets := Function.update S.flipsets f (some (k, r, fs')) } : Session K).builder r =
          some { b0 with aset := B } := hbs
      exact h1.store hbs' q1 q2.kin
  | sort f cols inplace =>
    obtain ⟨k, r, fs, hf, ⟨er, -, rfl, -⟩ | ⟨fs', hs, rfl, -⟩⟩ := call_sort hc
    · exact h
    · obtain ⟨g1, g2, ord, g3⟩ := h.flipsets f k r fs hf
      refine h.flip g1 g2 ⟨if inplace then some cols else none, fun B b => ?_⟩
      have hs' : ({ fs with aset := B, builder := b } : Flipset K).sort cols inplace = .ok { fs' with aset := B, builder := b } := by
        unfold Flipset.sort at hs ⊢
        by_cases hcl : cols.isEmpty = true
        · rw [if_pos hcl] at hs; cases hs
        · rw [if_neg hcl] at hs ⊢
          rw [← Except.ok.inj hs]
          unfold Flipset.resort
          dsimp only
          split_ifs <;> rfl
      exact .sortBy (g3 B b) hs'

theorem Session.OK.run (h : S.OK ext) {l : List (Call K)} {reps : List (Reply K)} (hl : S.run ext l = some (S', reps)) : S'.OK ext := by
  induction l generalizing S reps with
  | nil => unfold Session.run at hl; cases hl; exact h
  | cons c l ih =>
    unfold Session.run at hl
    rcases hc : S.call ext c with _ | ⟨S1, rep⟩
    · rw [hc] at hl; cases hl
    · rw [hc] at hl
      dsimp only at hl
      rcases hl' : S1.run ext l with _ | ⟨S2, reps'⟩
      · rw [hl'] at hl; cases hl
      · rw [hl'] at hl; cases hl
        exact ih (h.call hc) hl'

theorem Session.Reachable.ok (h : S.Reachable ext) : S.OK ext := by
  obtain ⟨l, reps, h⟩ := h
  exact Session.OK.empty.run h

/-- **C111**, histories: in whatever order the objects of a program are made and used, every action set, builder, auditor and flipset is in a
state of a history of this object alone.  So everything proved about such histories (C01 to C110) holds in programs with many objects that
share action sets and builders. -/
theorem C111_histories (h : S.Reachable ext) : (∀ k A, S.sets k = some A → A.Reachable ext) ∧
    (∀ r b, S.builder r = some b → b.Reachable ext) ∧ (∀ a ad, S.auditor a = some ad → ad.Reachable ext) ∧
    ∀ f fs, S.flipset f = some fs → ∃ ord, fs.Reachable ext ord := by
  have hok := h.ok
  refine ⟨hok.sets, fun r b hb => hok.builder hb, fun a ad ha => ?_, fun f fs hf => ?_⟩
  · unfold Session.auditor at ha
    rcases hw : S.auditors a with _ | ⟨w, t⟩
    · rw [hw] at ha; cases ha
    rcases hb : S.builder (.ofAuditor a) with _ | b
    · rw [hw, hb] at ha; cases ha
    rw [hw, hb] at ha
    cases ha
    have hbr := hok.builder hb
    obtain ⟨k, b0, A, h1, h2, rfl⟩ := Session.builder_some hb
    obtain ⟨k', c, g1, g2⟩ := hok.auditors a w t hw
    rw [h1] at g1; cases g1
    exact g2 A hbr
  · unfold Session.flipset at hf
    rcases hw : S.flipsets f with _ | ⟨k, r, fs0⟩
    · rw [hw] at hf; cases hf
    rw [hw] at hf
    dsimp only at hf
    rcases hA : S.sets k with _ | A
    · rw [hA] at hf; cases hf
    rw [hA] at hf; cases hf
    obtain ⟨-, -, ord, g⟩ := hok.flipsets f k r fs0 hw
    exact ⟨ord, g A _⟩

end Recourse
