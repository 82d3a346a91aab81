import Verif.Props.SessionTwin

/-!
# What is done with other objects does not matter (C111)
-/

set_option linter.unusedSectionVars false

namespace Recourse

variable {K : Type} [Field K] [LinearOrder K] [IsStrictOrderedRing K] [FloorRing K]

variable {ext : Ext K} {A A' A2 : ActionSet K} {b b' : Builder K} {S S' S2 S2' : Session K} {r : BRef} {k : ℕ} {rep : Reply K} {c : Call K}

/-! ## Alignment of sets that look the same -/

theorem zip_flip {l l2 : List (Elem K)} {fl : List Int} (hl : l2.map (Elem.fillCache ext) = l.map (Elem.fillCache ext))
    (h : List.zipWith Elem.setFlip l fl = l) : List.zipWith Elem.setFlip l2 fl = l2 := by
  induction l generalizing l2 fl with
  | nil =>
    cases l2 with
    | nil => rfl
    | cons e l2 => cases hl
  | cons e l ih =>
    cases l2 with
    | nil => cases hl
    | cons e2 l2 =>
      cases fl with
      | nil => cases h
      | cons f fl =>
        rw [List.zipWith_cons_cons, List.cons.injEq] at h ⊢
        rw [List.map_cons, List.map_cons, List.cons.injEq] at hl
        refine ⟨?_, ih hl.2 h.2⟩
        have hf : e.flip = some (Int.sign f) := by rw [← h.1]; rfl
        obtain ⟨c1, h1⟩ := fillCache_eq ext e
        obtain ⟨c2, h2⟩ := fillCache_eq ext e2
        have h3 := congrArg Elem.flip hl.1
        rw [h1, h2] at h3
        have h4 : e2.flip = e.flip := h3
        unfold Elem.setFlip
        rw [← hf, ← h4]

theorem setAlignment_twin {w : List K} (hn : A2.norm ext = A.norm ext) (h : A.setAlignment w = .ok A) : A2.setAlignment w = .ok A2 := by
  obtain ⟨h1, h2⟩ := setAlignment_ok h
  have hnames : A2.names = A.names := by have := congrArg ActionSet.names hn; exact this
  have hy : A2.yDesired = A.yDesired := by have := congrArg ActionSet.yDesired hn; exact this
  have hel : A2.elems.map (Elem.fillCache ext) = A.elems.map (Elem.fillCache ext) := by
    have := congrArg ActionSet.elems hn; exact this
  have h3 := congrArg ActionSet.elems h2
  unfold ActionSet.setAlignment
  rw [hnames, decide_eq_true h1, pyAssert_true, ok_bind, hy]
  dsimp only
  rw [zip_flip hel h3.symm, ← hnames, ← hy]

theorem known_of_norm (hn : A2.norm ext = A.norm ext) (hk : A.alignmentKnown = true) : A2.alignmentKnown = true := by
  rw [← norm_alignmentKnown (ext := ext), hn, norm_alignmentKnown]; exact hk

/-- Harmless calls. -/
theorem harmless_norm {cs : SetCall K} (hn : A2.norm ext = A.norm ext) (h : cs.Harmless A) : (A2.call ext cs).norm ext = A2.norm ext := by
  cases cs with
  | percentile j =>
    unfold ActionSet.call
    dsimp only
    cases hj : A2.elems[j]? with
    | none => rfl
    | some e =>
      dsimp only
      unfold ActionSet.norm
      dsimp only
      rw [List.map_set, fillCache_idem]
      congr 1
      refine List.ext_getElem? fun i => ?_
      rw [List.getElem?_set]
      split_ifs with h1 h2
      · subst h1; rw [List.getElem?_map, hj]; rfl
      · subst h1
        rw [List.length_map] at h2
        rw [List.getElem?_eq_none (by rw [List.length_map]; omega)]
      · rfl
  | align w =>
    have h' : A.setAlignment w = .ok A := h
    unfold ActionSet.call
    dsimp only
    rw [setAlignment_twin hn h']
  | setY y => cases h
  | addConstraint names lb ub id => cases h
  | removeConstraint id => cases h
  | setAttr attr v => cases h
  | setSlice idx attr v => cases h
  | setElem n attr v => cases h
  | updateGrid j => cases h
  | interp j left right => cases h
  | replace n values bounds vt act st sd ss => cases h

/-! ## The relation -/

/-- Two sessions in which the builder `r`, working on the set `k`, cannot be told apart. -/
structure Twins (ext : Ext K) (A : ActionSet K) (k : ℕ) (r : BRef) (S S2 : Session K) : Prop where
  ok : S.OK ext
  ok2 : S2.OK ext
  known : A.alignmentKnown = true
  set : ∃ A1, S.sets k = some A1 ∧ A1.norm ext = A.norm ext
  set2 : ∃ A2, S2.sets k = some A2 ∧ A2.norm ext = A.norm ext
  builder : (S.builders r = none ∧ S2.builders r = none) ∨ ∃ b A, S.builders r = some (k, b) ∧ S2.builders r = some (k, b.onSet A)
  auditor : ∀ a, r = .ofAuditor a → S2.auditors a = S.auditors a
  flipset : ∀ f k' fs, S.flipsets f = some (k', r, fs) → k' = k ∧ ∃ A b, S2.flipsets f = some (k, r, fs.over A b)
  made : S.builders r = none → ∃ f p, r = .ofFlipset f ∧ S.flipsets f = some p

theorem Twins.refl (h : S.OK ext) (hk : S.sets k = some A) (hal : A.alignmentKnown = true) (hw : S.WorksOn r k) : Twins ext A k r S S := by
  refine ⟨h, h, hal, ⟨A, hk, rfl⟩, ⟨A, hk, rfl⟩, ?_, fun _ _ => rfl, fun f k' fs hf => ?_, hw.made⟩
  · rcases hb : S.builders r with _ | ⟨k', b⟩
    · exact Or.inl ⟨rfl, rfl⟩
    · have := hw.builder k' b hb
      subst this
      exact Or.inr ⟨b, b.aset, rfl, rfl⟩
  · have := hw.flipset f k' fs hf
    subst this
    exact ⟨rfl, fs.aset, fs.builder, hf⟩

/-- Something else happens in the first session. -/
theorem Twins.left (h : Twins ext A k r S S2) (hok : S'.OK ext)
    (hset : ∀ A1, S.sets k = some A1 → ∃ A2, S'.sets k = some A2 ∧ A2.norm ext = A1.norm ext)
    (hb : S'.builders r = S.builders r) (ha : ∀ a, r = .ofAuditor a → S'.auditors a = S.auditors a)
    (hf : ∀ f k' fs, S'.flipsets f = some (k', r, fs) → S.flipsets f = some (k', r, fs))
    (hm : ∀ f p, S.flipsets f = some p → ∃ q, S'.flipsets f = some q) : Twins ext A k r S' S2 := by
  obtain ⟨A1, h1, h2⟩ := h.set
  obtain ⟨B, h3, h4⟩ := hset A1 h1
  refine ⟨hok, h.ok2, h.known, ⟨B, h3, h4.trans h2⟩, h.set2, by rw [hb]; exact h.builder, fun a e => by rw [ha a e]; exact h.auditor a e,
    fun f k' fs hfs => h.flipset f k' fs (hf f k' fs hfs), fun hn => ?_⟩
  rw [hb] at hn
  obtain ⟨f, p, e, hp⟩ := h.made hn
  obtain ⟨q, hq⟩ := hm f p hp
  exact ⟨f, q, e, hq⟩

theorem Twins.not_named (h : Twins ext A k r S S2) {n : ℕ} (hn : S.builders (.named n) = none) : r ≠ .named n := by
  rintro rfl
  obtain ⟨f, p, e, -⟩ := h.made hn
  cases e

theorem Twins.not_auditor (h : Twins ext A k r S S2) {a : ℕ} (hn : S.builders (.ofAuditor a) = none) : r ≠ .ofAuditor a := by
  rintro rfl
  obtain ⟨f, p, e, -⟩ := h.made hn
  cases e

theorem Twins.not_flipset (h : Twins ext A k r S S2) {f : ℕ} (hn : S.builders (.ofFlipset f) = none) (hf : S.flipsets f = none) :
    r ≠ .ofFlipset f := by
  rintro rfl
  obtain ⟨f, p, e, hp⟩ := h.made hn
  cases e
  rw [hf] at hp; cases hp

/-- Another builder is used. -/
theorem Twins.storeOther (h : Twins ext A k r S S2) {r' : BRef} (hb : S.builder r' = some b) (hk : Kin ext b b') (hr : r' ≠ r)
    (hok : (S.store r' b').OK ext) : Twins ext A k r (S.store r' b') S2 := by
  obtain ⟨k', b0, B, h1, h2, rfl⟩ := Session.builder_some hb
  have e : S.store r' b' = { S with
      sets := Function.update S.sets k' (some b'.aset)
      builders := Function.update S.builders r' (some (k', b')) } := by unfold Session.store; rw [h1]
  rw [e] at hok ⊢
  refine h.left hok ?_ ?_ (fun _ _ => rfl) (fun f k' fs hf => hf) (fun f p hp => ⟨p, hp⟩)
  · intro A1 hA1
    dsimp only
    by_cases ek : k' = k
    · subst ek
      rw [h2] at hA1; cases hA1
      exact ⟨b'.aset, Function.update_self .., hk.aset⟩
    · exact ⟨A1, by rw [Function.update_of_ne (Ne.symm ek)]; exact hA1, rfl⟩
  · dsimp only
    rw [Function.update_of_ne (Ne.symm hr)]

/-- The builder itself is used in both sessions. -/
theorem Twins.storeOwn (h : Twins ext A k r S S2) (hb : S.builder r = some b) (hk : Kin ext b b') (hn : A'.norm ext = b'.aset.norm ext)
    (hok : (S.store r b').OK ext) (hok2 : (S2.store r (b'.onSet A')).OK ext) : Twins ext A k r (S.store r b') (S2.store r (b'.onSet A')) := by
  obtain ⟨k', b0, B, h1, h2, rfl⟩ := Session.builder_some hb
  rcases h.builder with ⟨g1, -⟩ | ⟨b1, B1, g1, g2⟩
  · rw [h1] at g1; cases g1
  rw [h1] at g1; cases g1
  have e : S.store r b' = { S with
      sets := Function.update S.sets k (some b'.aset)
      builders := Function.update S.builders r (some (k, b')) } := by unfold Session.store; rw [h1]
  have e2 : S2.store r (b'.onSet A') = { S2 with
      sets := Function.update S2.sets k (some A')
      builders := Function.update S2.builders r (some (k, b'.onSet A')) } := by unfold Session.store; rw [g2]; rfl
  rw [e] at hok ⊢
  rw [e2] at hok2 ⊢
  obtain ⟨A1, q1, q2⟩ := h.set
  rw [h2] at q1; cases q1
  have hk' : b'.aset.norm ext = B.norm ext := hk.aset
  refine ⟨hok, hok2, h.known, ⟨b'.aset, Function.update_self .., hk'.trans q2⟩,
    ⟨A', Function.update_self .., hn.trans (hk'.trans q2)⟩, Or.inr ⟨b', A', Function.update_self .., Function.update_self ..⟩, h.auditor,
    h.flipset, fun hx => ?_⟩
  dsimp only at hx
  rw [Function.update_self] at hx; cases hx

/-- The builder as it is seen in both sessions. -/
theorem Twins.seen (h : Twins ext A k r S S2) (hb : S.builder r = some b) :
    ∃ B, S2.builder r = some (b.onSet B) ∧ B.norm ext = b.aset.norm ext := by
  obtain ⟨k', b0, A1, h1, h2, rfl⟩ := Session.builder_some hb
  rcases h.builder with ⟨g1, -⟩ | ⟨b1, B1, g1, g2⟩
  · rw [h1] at g1; cases g1
  rw [h1] at g1; cases g1
  obtain ⟨A3, q1, q2⟩ := h.set
  rw [h2] at q1; cases q1
  obtain ⟨B, q3, q4⟩ := h.set2
  exact ⟨B, by rw [Session.builder_of g2 q3]; rfl, q4.trans q2.symm⟩

theorem Twins.seen_none (h : Twins ext A k r S S2) (hb : S.builder r = none) : S.builders r = none ∧ S2.builders r = none := by
  rcases h.builder with hx | ⟨b1, B1, g1, g2⟩
  · exact hx
  · obtain ⟨A3, q1, q2⟩ := h.set
    rw [Session.builder_of g1 q1] at hb; cases hb

/-! ## Calls to the builder itself -/

theorem Twins.own (h : Twins ext A k r S S2) (hu : S.uses c = some r) (hc : S.call ext c = some (S', rep)) :
    ∃ S2', S2.call ext c = some (S2', rep) ∧ Twins ext A k r S' S2' := by
  cases c with
  | newSet k X names y custom dflt st => cases hu
  | set k c => cases hu
  | newBuilder n k be ct w t => cases hu
  | newAuditor a k be w t => cases hu
  | newFlipset f k r' be x w t => cases hu
  | builder r' c =>
    have : r' = r := Option.some.inj hu
    subst this
    have hok := h.ok.call hc
    obtain ⟨b, b', hb, hb', rfl⟩ := call_builder hc
    obtain ⟨B, g1, g2⟩ := h.seen hb
    obtain ⟨A', q1, q2⟩ := builderCall_onSet (h.ok.builder hb) (h.ok2.builder g1) g2 hb'
    have hc2 : S2.call ext (.builder r' c) = some (S2.store r' (b'.onSet A'), rep) := by
      unfold Session.call
      dsimp only
      rw [g1]; dsimp only; rw [q1]
    exact ⟨_, hc2, h.storeOwn hb (Builder.call_ok (h.ok.builder hb) hb').2 q2 hok (h.ok2.call hc2)⟩
  | audit a o X y =>
    have : .ofAuditor a = r := Option.some.inj hu
    subst this
    have hok := h.ok.call hc
    obtain ⟨w, t, b, hw, hb, rfl, rfl⟩ := call_audit hc
    obtain ⟨B, g1, g2⟩ := h.seen hb
    obtain ⟨A', q1, q2⟩ := audit_onSet (o := o) (w := w) (t := t) (h.ok.builder hb) (h.ok2.builder g1) g2 X y
    have hkin := ((audit_used (ad := ⟨w, t, b⟩) (h.ok.builder hb) o X y).setup (h.ok.builder hb)).2.kin
    have hw2 : S2.auditors a = some (w, t) := by rw [h.auditor a rfl]; exact hw
    have hc2 : S2.call ext (.audit a o X y) = some (S2.store (.ofAuditor a)
        (((⟨w, t, b⟩ : Auditor K).audit ext o X y).1.builder.onSet A'), .ofAudit ((⟨w, t, b⟩ : Auditor K).audit ext o X y).2) := by
      unfold Session.call Session.auditor
      dsimp only
      rw [hw2, g1]
      dsimp only
      rw [q1]
      rcases ((⟨w, t, b⟩ : Auditor K).audit ext o X y).2 with er | l <;> rfl
    exact ⟨_, hc2, h.storeOwn hb hkin q2 hok (h.ok2.call hc2)⟩
  | sort f cols inplace =>
    have hok := h.ok.call hc
    obtain ⟨k', r', fs, hf, hs⟩ := call_sort hc
    unfold Session.uses at hu
    dsimp only at hu
    rw [hf] at hu
    have : r' = r := Option.some.inj hu
    subst this
    obtain ⟨rfl, B, b0, hf2⟩ := h.flipset f k' fs hf
    rcases hs with ⟨er, h1, rfl, rfl⟩ | ⟨fs', h1, rfl, rfl⟩
    · have hc2 : S2.call ext (.sort f cols inplace) = some (S2, .failed er) := by
        unfold Session.call
        dsimp only
        rw [hf2]; dsimp only; rw [sort_over, h1]; rfl
      exact ⟨_, hc2, h⟩
    · have hc2 : S2.call ext (.sort f cols inplace) = some
          ({ S2 with flipsets := Function.update S2.flipsets f (some (k', r', fs'.over B b0)) }, .table (.ok ()) fs'.items fs'.rows) := by
        unfold Session.call
        dsimp only
        rw [hf2]; dsimp only; rw [sort_over, h1]; rfl
      refine ⟨_, hc2, hok, h.ok2.call hc2, h.known, h.set, h.set2, h.builder, h.auditor, fun f' k'' fs'' hf' => ?_, fun hn => ?_⟩
      · dsimp only at hf' ⊢
        by_cases e : f' = f
        · subst e
          rw [Function.update_self] at hf' ⊢
          cases hf'
          exact ⟨rfl, B, b0, rfl⟩
        · rw [Function.update_of_ne e] at hf' ⊢
          exact h.flipset f' k'' fs'' hf'
      · obtain ⟨f1, p, e, hp⟩ := h.made hn
        dsimp only
        by_cases e1 : f1 = f
        · subst e1; exact ⟨f1, _, e, Function.update_self ..⟩
        · exact ⟨f1, p, e, by rw [Function.update_of_ne e1]; exact hp⟩
  | populate f o fuel total et ct =>
    have hok := h.ok.call hc
    obtain ⟨k', r', fs, A1, fs', res, hf, hk, hp, rfl, rfl⟩ := call_populate hc
    unfold Session.uses at hu
    dsimp only at hu
    rw [hf] at hu
    have : r' = r := Option.some.inj hu
    subst this
    obtain ⟨rfl, B, b0, hf2⟩ := h.flipset f k' fs hf
    obtain ⟨A1', q1, q2⟩ := h.set
    rw [hk] at q1; cases q1
    obtain ⟨A2, q3, q4⟩ := h.set2
    have hn : A2.norm ext = A1.norm ext := q4.trans q2.symm
    have htw : FlipTwin ext ({ fs with aset := A1, builder := S.builder r' } : Flipset K)
        ({ fs.over B b0 with aset := A2, builder := S2.builder r' } : Flipset K) := by
      refine ⟨⟨A2, S2.builder r', rfl⟩, hn, ?_⟩
      rcases hb : S.builder r' with _ | b
      · obtain ⟨-, g2⟩ := h.seen_none hb
        exact Or.inl ⟨rfl, by dsimp only; unfold Session.builder; rw [g2]⟩
      · obtain ⟨B', g1, g2⟩ := h.seen hb
        exact Or.inr ⟨b, B', rfl, g1, g2⟩
    obtain ⟨fs2', g1, g2⟩ := populate_twin htw (h.ok.sets _ _ hk) (h.ok2.sets _ _ q3) (known_of_norm q2 h.known)
      (fun b hb => h.ok.builder hb) hp
    obtain ⟨⟨B', b', rfl⟩, g3, g4⟩ := g2
    have hc2 : S2.call ext (.populate f o fuel total et ct) =
        some (S2.storeFlip f k' r' (fs'.over B' b'), .table res fs'.items fs'.rows) := by
      unfold Session.call Session.flipset
      dsimp only
      rw [hf2]
      dsimp only
      rw [q3]
      dsimp only
      rw [g1]
      rfl
    refine ⟨_, hc2, ?_⟩
    have hok2 := h.ok2.call hc2
    have hflip : ∀ f' k'' fs'', Function.update S.flipsets f (some (k', r', fs')) f' = some (k'', r', fs'') →
        k'' = k' ∧ ∃ A b, Function.update S2.flipsets f (some (k', r', fs'.over B' b')) f' = some (k', r', fs''.over A b) := by
      intro f' k'' fs'' hf'
      by_cases e : f' = f
      · subst e
        rw [Function.update_self] at hf' ⊢
        cases hf'
        exact ⟨rfl, B', b', rfl⟩
      · rw [Function.update_of_ne e] at hf' ⊢
        exact h.flipset f' k'' fs'' hf'
    have hmade : S.builders r' = none → ∃ f1 p, r' = .ofFlipset f1 ∧ Function.update S.flipsets f (some (k', r', fs')) f1 = some p := by
      intro hn
      obtain ⟨f1, p, e, hp⟩ := h.made hn
      by_cases e1 : f1 = f
      · subst e1; exact ⟨f1, _, e, Function.update_self ..⟩
      · exact ⟨f1, p, e, by rw [Function.update_of_ne e1]; exact hp⟩
    rcases hb : S.builder r' with _ | b
    · obtain ⟨n1, n2⟩ := h.seen_none hb
      obtain ⟨p1, p2, p3, p4⟩ := populate_new (h.ok.sets _ _ hk) hb hp
      have p5 : fs'.aset.norm ext = A.norm ext := (p3 (known_of_norm q2 h.known)).trans q2
      have g3' : B'.norm ext = fs'.aset.norm ext := g3
      rcases g4 with ⟨g4, g5⟩ | ⟨c, C, g4, g5, g6⟩
      · have g5' : b' = none := g5
        have e : S.storeFlip f k' r' fs' = { S with flipsets := Function.update S.flipsets f (some (k', r', fs'))
                                                    sets := Function.update S.sets k' (some fs'.aset) } := by
          unfold Session.storeFlip; dsimp only; rw [n1, g4]
        have e2 : S2.storeFlip f k' r' (fs'.over B' b') =
            { S2 with flipsets := Function.update S2.flipsets f (some (k', r', fs'.over B' b'))
                      sets := Function.update S2.sets k' (some B') } := by
          unfold Session.storeFlip; dsimp only; rw [n2, g5]; rfl
        rw [e] at hok ⊢; rw [e2] at hok2 ⊢
        exact ⟨hok, hok2, h.known, ⟨_, Function.update_self .., p5⟩, ⟨_, Function.update_self .., g3'.trans p5⟩, Or.inl ⟨n1, n2⟩,
          h.auditor, hflip, hmade⟩
      · have e : S.storeFlip f k' r' fs' = { S with flipsets := Function.update S.flipsets f (some (k', r', fs'))
                                                    sets := Function.update S.sets k' (some fs'.aset)
                                                    builders := Function.update S.builders r' (some (k', c)) } := by
          unfold Session.storeFlip; dsimp only; rw [n1, g4]
        have e2 : S2.storeFlip f k' r' (fs'.over B' b') =
            { S2 with flipsets := Function.update S2.flipsets f (some (k', r', fs'.over B' b'))
                      sets := Function.update S2.sets k' (some B')
                      builders := Function.update S2.builders r' (some (k', c.onSet C)) } := by
          unfold Session.storeFlip; dsimp only; rw [n2, g5]; rfl
        rw [e] at hok ⊢; rw [e2] at hok2 ⊢
        refine ⟨hok, hok2, h.known, ⟨_, Function.update_self .., p5⟩, ⟨_, Function.update_self .., g3'.trans p5⟩,
          Or.inr ⟨c, C, Function.update_self .., Function.update_self ..⟩, h.auditor, hflip, fun hn => ?_⟩
        dsimp only at hn
        rw [Function.update_self] at hn; cases hn
    · obtain ⟨p1, c, p2, p3⟩ := populate_old hb hp
      have hkin := (p3.setup (h.ok.builder hb)).2.kin
      rcases g4 with ⟨g4, -⟩ | ⟨c', C, g4, g5, g6⟩
      · rw [p2] at g4; cases g4
      rw [p2] at g4; cases g4
      obtain ⟨k1, bb, A3, r1, r2, r3⟩ := Session.builder_some hb
      rcases h.builder with ⟨w1, -⟩ | ⟨bb', BB, w1, w2⟩
      · rw [r1] at w1; cases w1
      have e : S.storeFlip f k' r' fs' = ({ S with flipsets := Function.update S.flipsets f (some (k', r', fs')) } : Session K).store r' c := by
        unfold Session.storeFlip; dsimp only; rw [r1, p2]
      have e2 : S2.storeFlip f k' r' (fs'.over B' b') =
          ({ S2 with flipsets := Function.update S2.flipsets f (some (k', r', fs'.over B' b')) } : Session K).store r' (c.onSet C) := by
        unfold Session.storeFlip; dsimp only; rw [w2, g5]
      rw [e] at hok ⊢; rw [e2] at hok2 ⊢
      have hfl := h.ok.flipsets f k' r' fs hf
      have hfl2 := h.ok2.flipsets f k' r' _ hf2
      obtain ⟨ord, hord⟩ := hfl.2.2
      have hre : ∃ ord, ∀ A b, ({ fs' with aset := A, builder := b } : Flipset K).Reachable ext ord :=
        ⟨ord, fun B b => .user B b (.populate (hord A1 (S.builder r')) hp)⟩
      have o1 := h.ok.flip (k := k') (r := r') (f := f) ⟨A1, hk⟩ hfl.2.1 hre
      have o2 : ({ S2 with flipsets := Function.update S2.flipsets f (some (k', r', fs'.over B' b')) } : Session K).OK ext :=
        h.ok2.flip (k := k') (r := r') (f := f) (fs := fs'.over B' b') ⟨A2, q3⟩ hfl2.2.1 hre
      have ht : Twins ext A k' r' ({ S with flipsets := Function.update S.flipsets f (some (k', r', fs')) } : Session K)
          ({ S2 with flipsets := Function.update S2.flipsets f (some (k', r', fs'.over B' b')) } : Session K) :=
        ⟨o1, o2, h.known, h.set, h.set2, h.builder, h.auditor, hflip, hmade⟩
      exact ht.storeOwn (b := b) hb hkin g6 hok hok2

/-! ## Calls to other objects -/

theorem Twins.other (h : Twins ext A k r S S2) (hu : S.uses c ≠ some r) (hs : c.Spares A k r) (hc : S.call ext c = some (S', rep)) :
    Twins ext A k r S' S2 := by
  have hok := h.ok.call hc
  cases c with
  | newSet k' X names y custom dflt st =>
    rcases call_newSet hc with rfl | ⟨hn, B, hm, rfl⟩
    · exact h
    · refine h.left hok ?_ rfl (fun _ _ => rfl) (fun f k' fs hf => hf) (fun f p hp => ⟨p, hp⟩)
      intro A1 hA1
      refine ⟨A1, ?_, rfl⟩
      dsimp only
      rw [Function.update_of_ne (by rintro rfl; rw [hn] at hA1; cases hA1)]
      exact hA1
  | set k' cs =>
    obtain ⟨B, hk, rfl⟩ := call_set hc
    refine h.left hok ?_ rfl (fun _ _ => rfl) (fun f k' fs hf => hf) (fun f p hp => ⟨p, hp⟩)
    intro A1 hA1
    dsimp only
    by_cases e : k' = k
    · subst e
      rw [hk] at hA1; cases hA1
      refine ⟨_, Function.update_self .., ?_⟩
      rcases hs with hs | hs
      · exact absurd rfl hs
      · obtain ⟨A2, g1, g2⟩ := h.set
        rw [hk] at g1; cases g1
        exact harmless_norm g2 hs
    · exact ⟨A1, by rw [Function.update_of_ne (Ne.symm e)]; exact hA1, rfl⟩
  | newBuilder n k' be ct w t =>
    rcases call_newBuilder hc with rfl | ⟨B, b, hk, hn, hm, rfl⟩
    · exact h
    · refine h.left hok ?_ ?_ (fun _ _ => rfl) (fun f k' fs hf => hf) (fun f p hp => ⟨p, hp⟩)
      · intro A1 hA1
        dsimp only
        by_cases e : k' = k
        · subst e
          rw [hk] at hA1; cases hA1
          obtain ⟨A2, g1, g2⟩ := h.set
          rw [hk] at g1; cases g1
          refine ⟨_, Function.update_self .., ?_⟩
          have h3 := mkBuilder_aligned hm
          unfold AlignedWith at h3
          rw [if_pos (known_of_norm g2 h.known)] at h3
          rw [h3]
        · exact ⟨A1, by rw [Function.update_of_ne (Ne.symm e)]; exact hA1, rfl⟩
      · dsimp only
        rw [Function.update_of_ne (h.not_named hn)]
  | builder r' cb =>
    obtain ⟨b, b', hb, hb', rfl⟩ := call_builder hc
    exact h.storeOther hb (Builder.call_ok (h.ok.builder hb) hb').2 (fun e => hu (congrArg some e)) hok
  | newAuditor a k' be w t =>
    rcases call_newAuditor hc with rfl | ⟨B, ad, hk, hn, ha, hm, rfl⟩
    · exact h
    · have hne := h.not_auditor hn
      refine h.left hok ?_ ?_ ?_ (fun f k' fs hf => hf) (fun f p hp => ⟨p, hp⟩)
      · intro A1 hA1
        dsimp only
        by_cases e : k' = k
        · subst e
          rw [hk] at hA1; cases hA1
          refine ⟨_, Function.update_self .., ?_⟩
          rcases hs with hs | hs
          · exact absurd rfl hs
          · obtain ⟨A2, g1, g2⟩ := h.set
            rw [hk] at g1; cases g1
            unfold mkAuditor at hm
            obtain ⟨B1, h1, hm⟩ := bind_ok_iff.mp hm
            obtain ⟨b, h2, hm⟩ := bind_ok_iff.mp hm
            rw [← Except.ok.inj hm]
            dsimp only
            rw [setAlignment_twin g2 hs] at h1
            cases h1
            have h3 := mkBuilder_aligned h2
            unfold AlignedWith at h3
            rw [if_pos (known_of_norm g2 h.known)] at h3
            rw [h3]
        · exact ⟨A1, by rw [Function.update_of_ne (Ne.symm e)]; exact hA1, rfl⟩
      · dsimp only
        rw [Function.update_of_ne hne]
      · intro a' e
        dsimp only
        rw [Function.update_of_ne (by rintro rfl; exact hne e)]
  | audit a o X y =>
    obtain ⟨w, t, b, hw, hb, -, rfl⟩ := call_audit hc
    have hkin := ((audit_used (ad := ⟨w, t, b⟩) (h.ok.builder hb) o X y).setup (h.ok.builder hb)).2.kin
    exact h.storeOther hb hkin (fun e => hu (congrArg some e)) hok
  | newFlipset f k' r' be x w t =>
    obtain ⟨B, hk, hf, hb, hr, rfl⟩ := call_newFlipset hc
    refine h.left hok (fun A1 hA1 => ⟨A1, hA1, rfl⟩) rfl (fun _ _ => rfl) ?_ ?_
    · intro f' k'' fs hf'
      dsimp only at hf'
      by_cases e : f' = f
      · subst e
        rw [Function.update_self] at hf'
        exfalso
        have hg : r'.getD (.ofFlipset f') = r := congrArg (fun p : ℕ × BRef × Flipset K => p.2.1) (Option.some.inj hf')
        cases r' with
        | none => exact h.not_flipset hb hf hg.symm
        | some r1 => exact hs (congrArg some hg)
      · rw [Function.update_of_ne e] at hf'
        exact hf'
    · intro f' p hp
      dsimp only
      by_cases e : f' = f
      · subst e; exact ⟨_, Function.update_self ..⟩
      · exact ⟨p, by rw [Function.update_of_ne e]; exact hp⟩
  | populate f o fuel total et ct =>
    obtain ⟨k', r', fs, A1, fs', res, hf, hk, hp, rfl, -⟩ := call_populate hc
    have hr : r' ≠ r := by
      rintro rfl
      refine hu ?_
      unfold Session.uses
      dsimp only
      rw [hf]; rfl
    have hflip : ∀ f' k'' fs'', Function.update S.flipsets f (some (k', r', fs')) f' = some (k'', r, fs'') →
        S.flipsets f' = some (k'', r, fs'') := by
      intro f' k'' fs'' hf'
      by_cases e : f' = f
      · subst e
        rw [Function.update_self] at hf'
        exact absurd (congrArg (fun p : ℕ × BRef × Flipset K => p.2.1) (Option.some.inj hf')) hr
      · rw [Function.update_of_ne e] at hf'
        exact hf'
    have hmade : ∀ f' p, S.flipsets f' = some p → ∃ q, Function.update S.flipsets f (some (k', r', fs')) f' = some q := by
      intro f' p hp
      by_cases e : f' = f
      · subst e; exact ⟨_, Function.update_self ..⟩
      · exact ⟨p, by rw [Function.update_of_ne e]; exact hp⟩
    have hset : S.builder r' = none → ∀ A1, S.sets k = some A1 →
        ∃ A2, Function.update S.sets k' (some fs'.aset) k = some A2 ∧ A2.norm ext = A1.norm ext := by
      intro hb A2 hA2
      by_cases e : k' = k
      · subst e
        rw [hk] at hA2; cases hA2
        obtain ⟨A3, g1, g2⟩ := h.set
        rw [hk] at g1; cases g1
        obtain ⟨-, -, p3, -⟩ := populate_new (h.ok.sets _ _ hk) hb hp
        exact ⟨_, Function.update_self .., p3 (known_of_norm g2 h.known)⟩
      · exact ⟨A2, by rw [Function.update_of_ne (Ne.symm e)]; exact hA2, rfl⟩
    rcases hb : S.builders r' with _ | ⟨k1, bb⟩
    · have hbn : S.builder r' = none := by unfold Session.builder; rw [hb]
      rcases hfb : fs'.builder with _ | c
      · have e : S.storeFlip f k' r' fs' = { S with flipsets := Function.update S.flipsets f (some (k', r', fs'))
                                                    sets := Function.update S.sets k' (some fs'.aset) } := by
          unfold Session.storeFlip; dsimp only; rw [hb, hfb]
        rw [e] at hok ⊢
        exact h.left hok (hset hbn) rfl (fun _ _ => rfl) hflip hmade
      · have e : S.storeFlip f k' r' fs' = { S with flipsets := Function.update S.flipsets f (some (k', r', fs'))
                                                    sets := Function.update S.sets k' (some fs'.aset)
                                                    builders := Function.update S.builders r' (some (k', c)) } := by
          unfold Session.storeFlip; dsimp only; rw [hb, hfb]
        rw [e] at hok ⊢
        exact h.left hok (hset hbn) (Function.update_of_ne (Ne.symm hr) ..) (fun _ _ => rfl) hflip hmade
    · obtain ⟨B, hB, -⟩ := h.ok.builders r' k1 bb hb
      have hbs := Session.builder_of hb hB
      obtain ⟨-, c, p2, p3⟩ := populate_old hbs hp
      have hkin := (p3.setup (h.ok.builder hbs)).2.kin
      have e : S.storeFlip f k' r' fs' = ({ S with flipsets := Function.update S.flipsets f (some (k', r', fs')) } : Session K).store r' c := by
        unfold Session.storeFlip; dsimp only; rw [hb, p2]
      rw [e] at hok ⊢
      have hfl := h.ok.flipsets f k' r' fs hf
      obtain ⟨ord, hord⟩ := hfl.2.2
      have hre : ∃ ord, ∀ A b, ({ fs' with aset := A, builder := b } : Flipset K).Reachable ext ord :=
        ⟨ord, fun B b => .user B b (.populate (hord A1 (S.builder r')) hp)⟩
      have o1 := h.ok.flip (k := k') (r := r') (f := f) ⟨A1, hk⟩ hfl.2.1 hre
      have ht : Twins ext A k r ({ S with flipsets := Function.update S.flipsets f (some (k', r', fs')) } : Session K) S2 :=
        h.left o1 (fun A1 hA1 => ⟨A1, hA1, rfl⟩) rfl (fun _ _ => rfl) hflip hmade
      exact ht.storeOther (b := { bb with aset := B }) hbs hkin hr hok
  | sort f cols inplace =>
    obtain ⟨k', r', fs, hf, ⟨er, -, rfl, -⟩ | ⟨fs', hss, rfl, -⟩⟩ := call_sort hc
    · exact h
    · have hr : r' ≠ r := by
        rintro rfl
        refine hu ?_
        unfold Session.uses
        dsimp only
        rw [hf]; rfl
      refine h.left hok (fun A1 hA1 => ⟨A1, hA1, rfl⟩) rfl (fun _ _ => rfl) ?_ ?_
      · intro f' k'' fs'' hf'
        dsimp only at hf'
        by_cases e : f' = f
        · subst e
          rw [Function.update_self] at hf'
          exact absurd (congrArg (fun p : ℕ × BRef × Flipset K => p.2.1) (Option.some.inj hf')) hr
        · rw [Function.update_of_ne e] at hf'
          exact hf'
      · intro f' p hp
        dsimp only
        by_cases e : f' = f
        · subst e; exact ⟨_, Function.update_self ..⟩
        · exact ⟨p, by rw [Function.update_of_ne e]; exact hp⟩

/-! ## Who uses the builder -/

/-- Calls do not change which calls use the builder. -/
theorem Twins.uses (h : Twins ext A k r S S2) (hs : S.uses c = some r ∨ c.Spares A k r) (hc : S.call ext c = some (S', rep)) (c' : Call K) :
    S'.uses c' = some r ↔ S.uses c' = some r := by
  have key : ∀ f, ((S'.flipsets f).map fun p => p.2.1) = some r ↔ ((S.flipsets f).map fun p => p.2.1) = some r := by
    intro f'
    have upd : ∀ {f k' : ℕ} {r' : BRef} {fs fs' : Flipset K}, S.flipsets f = some (k', r', fs) →
        ((Function.update S.flipsets f (some (k', r', fs')) f').map fun p => p.2.1) = (S.flipsets f').map fun p => p.2.1 := by
      intro f k' r' fs fs' hf
      by_cases e : f' = f
      · subst e; rw [Function.update_self, hf]; rfl
      · rw [Function.update_of_ne e]
    have st : ∀ (T : Session K) (q : BRef) (b : Builder K), (T.store q b).flipsets = T.flipsets := by
      intro T q b
      unfold Session.store
      rcases T.builders q with _ | ⟨k0, b0⟩ <;> rfl
    cases c with
    | newSet k' X names y custom dflt st => rcases call_newSet hc with rfl | ⟨-, B, -, rfl⟩ <;> rfl
    | set k' cs => obtain ⟨B, -, rfl⟩ := call_set hc; rfl
    | newBuilder n k' be ct w t => rcases call_newBuilder hc with rfl | ⟨B, b, -, -, -, rfl⟩ <;> rfl
    | builder r' cb => obtain ⟨b, b', -, -, rfl⟩ := call_builder hc; rw [st]
    | newAuditor a k' be w t => rcases call_newAuditor hc with rfl | ⟨B, ad, -, -, -, -, rfl⟩ <;> rfl
    | audit a o X y => obtain ⟨w, t, b, -, -, -, rfl⟩ := call_audit hc; rw [st]
    | newFlipset f k' r' be x w t =>
      obtain ⟨B, hk, hf, hb, hr, rfl⟩ := call_newFlipset hc
      dsimp only
      by_cases e : f' = f
      · subst e
        rw [Function.update_self, hf]
        have hne : r'.getD (.ofFlipset f') ≠ r := by
          cases r' with
          | none => exact (h.not_flipset hb hf).symm
          | some r1 =>
            rcases hs with hs | hs
            · cases hs
            · exact fun e => hs (congrArg some e)
        exact ⟨fun e => absurd (Option.some.inj e) hne, fun e => by cases e⟩
      · rw [Function.update_of_ne e]
    | populate f o fuel total et ct =>
      obtain ⟨k', r', fs, A1, fs', res, hf, -, -, rfl, -⟩ := call_populate hc
      have : (S.storeFlip f k' r' fs').flipsets = Function.update S.flipsets f (some (k', r', fs')) := by
        unfold Session.storeFlip
        dsimp only
        rcases S.builders r' with _ | q <;> rcases fs'.builder with _ | b
        · rfl
        · rfl
        · rfl
        · exact st _ _ _
      rw [this, upd hf]
    | sort f cols inplace =>
      obtain ⟨k', r', fs, hf, ⟨er, -, rfl, -⟩ | ⟨fs', hss, rfl, -⟩⟩ := call_sort hc
      · rfl
      · dsimp only; rw [upd hf]
  cases c' with
  | populate f o fuel total et ct => exact key f
  | sort f cols inplace => exact key f
  | newSet k' X names y custom dflt st => exact Iff.rfl
  | set k' cs => exact Iff.rfl
  | newBuilder n k' be ct w t => exact Iff.rfl
  | builder r' cb => exact Iff.rfl
  | newAuditor a k' be w t => exact Iff.rfl
  | audit a o X y => exact Iff.rfl
  | newFlipset f k' r' be x w t => exact Iff.rfl

/-! ## Programs -/

theorem run_cons {l : List (Call K)} {S'' : Session K} {reps : List (Reply K)} (h : S.run ext (c :: l) = some (S'', reps)) :
    ∃ S1 rep reps', S.call ext c = some (S1, rep) ∧ S1.run ext l = some (S'', reps') ∧ reps = rep :: reps' := by
  unfold Session.run at h
  rcases hc : S.call ext c with _ | ⟨S1, rep⟩
  · rw [hc] at h; cases h
  · rw [hc] at h
    dsimp only at h
    rcases hl : S1.run ext l with _ | ⟨S3, reps'⟩
    · rw [hl] at h; cases h
    · rw [hl] at h; cases h; exact ⟨S1, rep, reps', rfl, hl, rfl⟩

theorem Twins.run (h : Twins ext A k r S S2) {own : Call K → Bool} (ho : ∀ c, own c = true ↔ S.uses c = some r) {l : List (Call K)}
    (hl : ∀ c ∈ l, own c = true ∨ c.Spares A k r) {reps : List (Reply K)} (hr : S.run ext l = some (S', reps)) :
    ∃ S2', S2.run ext (l.filter own) = some (S2', repliesTo own l reps) ∧ Twins ext A k r S' S2' := by
  induction l generalizing S S2 reps with
  | nil =>
    unfold Session.run at hr
    cases hr
    exact ⟨S2, rfl, h⟩
  | cons c l ih =>
    obtain ⟨S1, rep, reps', hc, hr', rfl⟩ := run_cons hr
    have hl1 := hl c List.mem_cons_self
    have hu := h.uses (c := c) (hl1.imp (ho c).mp id) hc
    have ho' : ∀ c, own c = true ↔ S1.uses c = some r := fun c' => (ho c').trans (hu c').symm
    have hl' : ∀ c ∈ l, own c = true ∨ c.Spares A k r := fun c' hc' => hl c' (List.mem_cons_of_mem _ hc')
    by_cases hown : own c = true
    · obtain ⟨S3, g1, g2⟩ := h.own ((ho c).mp hown) hc
      obtain ⟨S4, q1, q2⟩ := ih g2 ho' hl' hr'
      refine ⟨S4, ?_, q2⟩
      rw [List.filter_cons_of_pos hown]
      unfold Session.run repliesTo
      rw [g1]
      dsimp only
      rw [q1, if_pos hown]
    · have g2 := h.other (fun e => hown ((ho c).mpr e)) (hl1.resolve_left hown) hc
      obtain ⟨S4, q1, q2⟩ := ih g2 ho' hl' hr'
      refine ⟨S4, ?_, q2⟩
      rw [List.filter_cons_of_neg hown]
      unfold repliesTo
      rw [if_neg hown]
      exact q1

/-- **C111**, what is done with other objects does not matter: a program reaches a state in which the builder `r` works on the aligned action
set `A`.  It goes on with any calls, some to the builder `r` (directly, by audits, or by flipsets that use it) and the others to anything else:
other builders, auditors and flipsets for the same set, changes of other sets; only the set itself is not changed or aligned with a classifier
that wants other directions.  Then the calls to `r` alone, without the others, give exactly the same replies. -/
theorem C111_interleaved (hr : S.Reachable ext) (hk : S.sets k = some A) (hal : A.alignmentKnown = true) (hw : S.WorksOn r k)
    {l : List (Call K)} (hl : ∀ c ∈ l, S.uses c = some r ∨ c.Spares A k r) {reps : List (Reply K)} (h : S.run ext l = some (S', reps)) :
    ∃ S2, S.run ext (l.filter fun c => decide (S.uses c = some r)) = some (S2, repliesTo (fun c => decide (S.uses c = some r)) l reps) := by
  obtain ⟨S2, h1, -⟩ := (Twins.refl hr.ok hk hal hw).run (own := fun c => decide (S.uses c = some r)) (fun c => decide_eq_true_iff)
    (fun c hc => (hl c hc).imp (fun e => decide_eq_true e) id) h
  exact ⟨S2, h1⟩

end Recourse
