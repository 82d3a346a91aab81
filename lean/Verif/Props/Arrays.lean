import Verif.Model.Arrays
import Verif.Props.SessionEx

/-!
# C114: arrays that a program passes in and gets back
-/

set_option linter.unusedSectionVars false

namespace Recourse

variable {K : Type} [Field K] [LinearOrder K] [IsStrictOrderedRing K] [FloorRing K]

variable {ext : Ext K} {S S' : Session K} {s s' : Arrays K} {P : List (ArrStep K)} {outs : List (ArrOut K)} {rep : Reply K}

/-! ## Specification -/

/-- The array is one that an object works with and hands out: the coefficients of a builder or an auditor, or the point of a flipset. -/
def Arrays.InUse (s : Arrays K) (a : ℕ) : Prop :=
  (∃ r, s.builderW r = some a) ∨ (∃ n, s.auditorW n = some a) ∨ ∃ f, s.flipX f = some a

/-- The program never writes to an array that an object works with: it only writes to arrays it made itself, whether it has passed them to the
library or not, and to what the getter `x` of a builder returned. -/
def Respects (ext : Ext K) : Arrays K → List (ArrStep K) → Prop
  | _, [] => True
  | s, c :: cs => (∀ a v, c = .write a v → ¬ s.InUse a) ∧ ∀ s' out, s.step ext c = some (s', out) → Respects ext s' cs

/-- The calls of a run, with the values of their arguments at the time of the call. -/
def callsOf (outs : List (ArrOut K)) : List (Call K) := outs.filterMap fun o => match o with
  | .reply c _ => some c
  | _ => none

/-- The replies of a run. -/
def repliesOf (outs : List (ArrOut K)) : List (Reply K) := outs.filterMap fun o => match o with
  | .reply _ r => some r
  | _ => none

/-- The arrays that a program made itself: by `new`, or by the getter `x` of a builder. -/
def madeBy (c : ArrStep K) (out : ArrOut K) : List ℕ := match c, out with
  | .new _, .array a => [a]
  | .builderX _, .array a => [a]
  | _, _ => []

/-- The program writes only to arrays that it made itself, whether it has passed them to the library or not. -/
def WritesOwn (ext : Ext K) : List ℕ → Arrays K → List (ArrStep K) → Prop
  | _, _, [] => True
  | own, s, c :: cs => (∀ a v, c = .write a v → a ∈ own) ∧
      ∀ s' out, s.step ext c = some (s', out) → WritesOwn ext (madeBy c out ++ own) s' cs

/-! ## What calls keep -/

/-- Objects that exist keep their coefficients and points. -/
structure Session.Keeps (S S' : Session K) : Prop where
  builders : ∀ r k b, S.builders r = some (k, b) → ∃ b', S'.builders r = some (k, b') ∧ b'.coefs = b.coefs
  auditors : ∀ a p, S.auditors a = some p → S'.auditors a = some p
  flipsets : ∀ f k r fs, S.flipsets f = some (k, r, fs) → ∃ fs', S'.flipsets f = some (k, r, fs') ∧ fs'.x = fs.x

theorem Session.Keeps.refl (S : Session K) : S.Keeps S := ⟨fun _ _ b h => ⟨b, h, rfl⟩, fun _ _ h => h, fun _ _ _ fs h => ⟨fs, h, rfl⟩⟩

theorem Session.Keeps.trans {S T U : Session K} (h : S.Keeps T) (g : T.Keeps U) : S.Keeps U := by
  refine ⟨fun r k b hb => ?_, fun a p hp => g.auditors a p (h.auditors a p hp), fun f k r fs hf => ?_⟩
  · obtain ⟨b1, h1, e1⟩ := h.builders r k b hb
    obtain ⟨b2, h2, e2⟩ := g.builders r k b1 h1
    exact ⟨b2, h2, e2.trans e1⟩
  · obtain ⟨f1, h1, e1⟩ := h.flipsets f k r fs hf
    obtain ⟨f2, h2, e2⟩ := g.flipsets f k r f1 h1
    exact ⟨f2, h2, e2.trans e1⟩

theorem Session.Keeps.store {r : BRef} {b b' : Builder K} (hb : S.builder r = some b) (hc : b'.coefs = b.coefs) : S.Keeps (S.store r b') := by
  obtain ⟨k, b0, A, h1, -, rfl⟩ := Session.builder_some hb
  unfold Session.store
  rw [h1]
  refine ⟨fun r' k' c hc' => ?_, fun _ _ h => h, fun _ _ _ fs h => ⟨fs, h, rfl⟩⟩
  dsimp only
  by_cases e : r' = r
  · subst e
    rw [h1] at hc'; cases hc'
    exact ⟨b', Function.update_self .., hc⟩
  · rw [Function.update_of_ne e]
    exact ⟨c, hc', rfl⟩

theorem Session.Keeps.newBuilder {r : BRef} (hn : S.builders r = none) (p : ℕ × Builder K) (sets : ℕ → Option (ActionSet K)) :
    S.Keeps { S with sets := sets, builders := Function.update S.builders r (some p) } := by
  refine ⟨fun r' k' c hc' => ?_, fun _ _ h => h, fun _ _ _ fs h => ⟨fs, h, rfl⟩⟩
  dsimp only
  rw [Function.update_of_ne (by rintro rfl; rw [hn] at hc'; cases hc')]
  exact ⟨c, hc', rfl⟩

theorem Session.Keeps.flip {f k : ℕ} {r : BRef} {fs : Flipset K}
    (h : ∀ k' r' fs', S.flipsets f = some (k', r', fs') → k' = k ∧ r' = r ∧ fs.x = fs'.x) :
    S.Keeps { S with flipsets := Function.update S.flipsets f (some (k, r, fs)) } := by
  refine ⟨fun r' k' c hc' => ⟨c, hc', rfl⟩, fun _ _ h => h, fun f' k' r' fs' hf => ?_⟩
  dsimp only
  by_cases e : f' = f
  · subst e
    obtain ⟨rfl, rfl, hx⟩ := h _ _ _ hf
    exact ⟨fs, Function.update_self .., hx⟩
  · rw [Function.update_of_ne e]
    exact ⟨fs', hf, rfl⟩

theorem add_x {fs fs' : Flipset K} {l : List (Info K)} (h : fs.add l = .ok fs') : fs'.x = fs.x := by
  obtain ⟨-, rfl⟩ := flipAdd_ok h
  split
  · rfl
  · rw [(resort_fields _).2.2.1]; rfl

theorem populate_x {fs fs' : Flipset K} {o : Oracle K} {fuel : ℕ} {total : Option ℕ} {et : EnumType} {ct : CostType} {res : Except Err Unit}
    (h : fs.populate ext o fuel total et ct = some (fs', res)) : fs'.x = fs.x := by
  rcases populate_flip h with ⟨er, A, b, -, rfl⟩ | ⟨A, b0, b, infos, -, -, hadd, -⟩
  · rfl
  · exact (add_x hadd).trans rfl

/-- Calls leave the coefficients and points of all objects alone. -/
theorem Session.OK.call_keeps (h : S.OK ext) {c : Call K} (hc : S.call ext c = some (S', rep)) : S.Keeps S' := by
  cases c with
  | newSet k X names y custom dflt st =>
    rcases call_newSet hc with rfl | ⟨hn, A, hm, rfl⟩
    · exact .refl _
    · exact ⟨fun _ _ b h => ⟨b, h, rfl⟩, fun _ _ h => h, fun _ _ _ fs h => ⟨fs, h, rfl⟩⟩
  | set k c =>
    obtain ⟨A, hk, rfl⟩ := call_set hc
    exact ⟨fun _ _ b h => ⟨b, h, rfl⟩, fun _ _ h => h, fun _ _ _ fs h => ⟨fs, h, rfl⟩⟩
  | newBuilder n k be ct w t =>
    rcases call_newBuilder hc with rfl | ⟨A, b, hk, hn, hm, rfl⟩
    · exact .refl _
    · exact .newBuilder hn _ _
  | builder r c =>
    obtain ⟨b, b', hb, hb', rfl⟩ := call_builder hc
    exact .store hb (Builder.call_ok (h.builder hb) hb').2.coefs
  | newAuditor a k be w t =>
    rcases call_newAuditor hc with rfl | ⟨A, ad, hk, hn, ha, hm, rfl⟩
    · exact .refl _
    · have h1 := Session.Keeps.newBuilder hn (k, ad.builder) (Function.update S.sets k (some ad.builder.aset))
      refine ⟨h1.builders, fun a' p hp => ?_, h1.flipsets⟩
      dsimp only
      rw [Function.update_of_ne (by rintro rfl; rw [ha] at hp; cases hp)]
      exact hp
  | audit a o X y =>
    obtain ⟨w, t, b, hw, hb, -, rfl⟩ := call_audit hc
    have hu := audit_used (ad := ⟨w, t, b⟩) (h.builder hb) o X y
    exact .store hb (hu.setup (h.builder hb)).2.kin.coefs
  | newFlipset f k r' be x w t =>
    obtain ⟨A, hk, hf, hb, hr, rfl⟩ := call_newFlipset hc
    exact .flip fun k' r' fs' hf' => by rw [hf] at hf'; cases hf'
  | populate f o fuel total et ct =>
    obtain ⟨k, r, fs, A, fs', res, hf, hk, hp, rfl, -⟩ := call_populate hc
    have hx := populate_x hp
    have h1 : S.Keeps { S with flipsets := Function.update S.flipsets f (some (k, r, fs')) } :=
      .flip fun k' r' fs1 hf' => by rw [hf] at hf'; cases hf'; exact ⟨rfl, rfl, hx⟩
    unfold Session.storeFlip
    dsimp only
    rcases hb : S.builders r with _ | ⟨k', b0⟩
    · rcases hb' : fs'.builder with _ | b'
      · exact h1.trans ⟨fun _ _ b h => ⟨b, h, rfl⟩, fun _ _ h => h, fun _ _ _ fs h => ⟨fs, h, rfl⟩⟩
      · have hb2 : ({ S with flipsets := Function.update S.flipsets f (some (k, r, fs')) } : Session K).builders r = none := hb
        exact h1.trans (Session.Keeps.newBuilder hb2 (k, b') (Function.update S.sets k (some fs'.aset)))
    · obtain ⟨B, hB, hbr⟩ := h.builders r k' b0 hb
      have hbs := Session.builder_of hb hB
      obtain ⟨-, b', g1, g2⟩ := populate_old hbs hp
      rw [g1]
      dsimp only
      have hbs' : ({ S with flipsets := Function.update S.flipsets f (some (k, r, fs')) } : Session K).builder r =
          some { b0 with aset := B } := hbs
      exact h1.trans (.store hbs' (g2.setup hbr).2.kin.coefs)
  | sort f cols inplace =>
    obtain ⟨k, r, fs, hf, ⟨er, -, rfl, -⟩ | ⟨fs', hs, rfl, -⟩⟩ := call_sort hc
    · exact .refl _
    · refine .flip fun k' r' fs1 hf' => ?_
      rw [hf] at hf'; cases hf'
      refine ⟨rfl, rfl, ?_⟩
      unfold Flipset.sort at hs
      by_cases hcl : cols.isEmpty = true
      · rw [if_pos hcl] at hs; cases hs
      · rw [if_neg hcl] at hs
        cases hs
        rw [(resort_fields _).2.2.1]

/-! ## What the memory holds -/

/-- The memory holds what the objects were made with. -/
structure Arrays.Sound (ext : Ext K) (s : Arrays K) : Prop where
  ok : s.session.OK ext
  builders : ∀ r a, s.builderW r = some a → ∃ k b, s.session.builders r = some (k, b) ∧ s.heap[a]? = some b.coefs
  auditors : ∀ n a, s.auditorW n = some a → ∃ w t, s.session.auditors n = some (w, t) ∧ s.heap[a]? = some w
  flipsets : ∀ f a, s.flipX f = some a → ∃ k r fs, s.session.flipsets f = some (k, r, fs) ∧ s.heap[a]? = some fs.x

theorem Arrays.Sound.empty : (Arrays.empty : Arrays K).Sound ext :=
  ⟨Session.OK.empty, fun _ _ h => (by cases h), fun _ _ h => (by cases h), fun _ _ h => (by cases h)⟩

theorem Arrays.Sound.view (h : s.Sound ext) : s.view = s.session := by
  have hread : ∀ (o : Option ℕ) (old : List K), (∀ a, o = some a → s.heap[a]? = some old) → s.read o old = old := by
    intro o old ho
    unfold Arrays.read
    cases o with
    | none => rfl
    | some a => dsimp only; rw [List.getD_eq_getElem?_getD, ho a rfl]; rfl
  unfold Arrays.view
  have e1 : (fun r => (s.session.builders r).map fun p => (p.1, { p.2 with coefs := s.read (s.builderW r) p.2.coefs })) = s.session.builders := by
    funext r
    rcases hb : s.session.builders r with _ | ⟨k, b⟩
    · rfl
    · rw [Option.map_some, hread]
      intro a ha
      obtain ⟨k', b', h1, h2⟩ := h.builders r a ha
      rw [hb] at h1; cases h1; exact h2
  have e2 : (fun a => (s.session.auditors a).map fun p => (s.read (s.auditorW a) p.1, p.2)) = s.session.auditors := by
    funext n
    rcases hb : s.session.auditors n with _ | ⟨w, t⟩
    · rfl
    · rw [Option.map_some, hread]
      intro a ha
      obtain ⟨k', b', h1, h2⟩ := h.auditors n a ha
      rw [hb] at h1; cases h1; exact h2
  have e3 : (fun f => (s.session.flipsets f).map fun p => (p.1, p.2.1, { p.2.2 with x := s.read (s.flipX f) p.2.2.x })) = s.session.flipsets := by
    funext f
    rcases hb : s.session.flipsets f with _ | ⟨k, r, fs⟩
    · rfl
    · rw [Option.map_some, hread]
      intro a ha
      obtain ⟨k', r', fs', h1, h2⟩ := h.flipsets f a ha
      rw [hb] at h1; cases h1; exact h2
  rw [e1, e2, e3]

/-- The same arrays, with another session that keeps the objects. -/
theorem Arrays.Sound.session (h : s.Sound ext) (hok : S.OK ext) (hk : s.session.Keeps S) : ({ s with session := S } : Arrays K).Sound ext := by
  refine ⟨hok, fun r a ha => ?_, fun n a ha => ?_, fun f a ha => ?_⟩
  · obtain ⟨k, b, h1, h2⟩ := h.builders r a ha
    obtain ⟨b', h3, h4⟩ := hk.builders r k b h1
    exact ⟨k, b', h3, by rw [h4]; exact h2⟩
  · obtain ⟨w, t, h1, h2⟩ := h.auditors n a ha
    exact ⟨w, t, hk.auditors n _ h1, h2⟩
  · obtain ⟨k, r, fs, h1, h2⟩ := h.flipsets f a ha
    obtain ⟨fs', h3, h4⟩ := hk.flipsets f k r fs h1
    exact ⟨k, r, fs', h3, by rw [h4]; exact h2⟩

theorem Arrays.Sound.heap (h : s.Sound ext) {l : List (List K)} (hl : ∀ a, s.InUse a → l[a]? = s.heap[a]?) :
    ({ s with heap := l } : Arrays K).Sound ext := by
  refine ⟨h.ok, fun r a ha => ?_, fun n a ha => ?_, fun f a ha => ?_⟩
  · obtain ⟨k, b, h1, h2⟩ := h.builders r a ha
    exact ⟨k, b, h1, (hl a (Or.inl ⟨r, ha⟩)).trans h2⟩
  · obtain ⟨w, t, h1, h2⟩ := h.auditors n a ha
    exact ⟨w, t, h1, (hl a (Or.inr (Or.inl ⟨n, ha⟩))).trans h2⟩
  · obtain ⟨k, r, fs, h1, h2⟩ := h.flipsets f a ha
    exact ⟨k, r, fs, h1, (hl a (Or.inr (Or.inr ⟨f, ha⟩))).trans h2⟩

theorem Arrays.Sound.inBounds (h : s.Sound ext) {a : ℕ} (ha : s.InUse a) : a < s.heap.length := by
  have : ∃ v, s.heap[a]? = some v := by
    rcases ha with ⟨r, ha⟩ | ⟨n, ha⟩ | ⟨f, ha⟩
    · obtain ⟨k, b, -, h2⟩ := h.builders r a ha; exact ⟨_, h2⟩
    · obtain ⟨w, t, -, h2⟩ := h.auditors n a ha; exact ⟨_, h2⟩
    · obtain ⟨k, r, fs, -, h2⟩ := h.flipsets f a ha; exact ⟨_, h2⟩
  obtain ⟨v, hv⟩ := this
  exact (List.getElem?_eq_some_iff.mp hv).1

theorem Arrays.Sound.append (h : s.Sound ext) (l : List (List K)) : ({ s with heap := s.heap ++ l } : Arrays K).Sound ext :=
  h.heap fun _ ha => List.getElem?_append_left (h.inBounds ha)

theorem Arrays.Sound.addBuilder (h : s.Sound ext) {r : BRef} {a k : ℕ} {b : Builder K} (hb : s.session.builders r = some (k, b))
    (ha : s.heap[a]? = some b.coefs) : ({ s with builderW := Function.update s.builderW r (some a) } : Arrays K).Sound ext := by
  refine ⟨h.ok, fun r' a' ha' => ?_, h.auditors, h.flipsets⟩
  dsimp only at ha' ⊢
  by_cases e : r' = r
  · subst e; rw [Function.update_self] at ha'; cases ha'; exact ⟨k, b, hb, ha⟩
  · rw [Function.update_of_ne e] at ha'; exact h.builders r' a' ha'

theorem Arrays.Sound.addAuditor (h : s.Sound ext) {n a : ℕ} {w : List K} {t : K} (hb : s.session.auditors n = some (w, t))
    (ha : s.heap[a]? = some w) : ({ s with auditorW := Function.update s.auditorW n (some a) } : Arrays K).Sound ext := by
  refine ⟨h.ok, h.builders, fun r' a' ha' => ?_, h.flipsets⟩
  dsimp only at ha' ⊢
  by_cases e : r' = n
  · subst e; rw [Function.update_self] at ha'; cases ha'; exact ⟨w, t, hb, ha⟩
  · rw [Function.update_of_ne e] at ha'; exact h.auditors r' a' ha'

theorem Arrays.Sound.addFlipset (h : s.Sound ext) {f a k : ℕ} {r : BRef} {fs : Flipset K} (hb : s.session.flipsets f = some (k, r, fs))
    (ha : s.heap[a]? = some fs.x) : ({ s with flipX := Function.update s.flipX f (some a) } : Arrays K).Sound ext := by
  refine ⟨h.ok, h.builders, h.auditors, fun r' a' ha' => ?_⟩
  dsimp only at ha' ⊢
  by_cases e : r' = f
  · subst e; rw [Function.update_self] at ha'; cases ha'; exact ⟨k, r, fs, hb, ha⟩
  · rw [Function.update_of_ne e] at ha'; exact h.flipsets r' a' ha'

theorem Arrays.Sound.after (h : s.Sound ext) {c : Call K} (hc : s.session.call ext c = some (S, rep)) (hr : rep.isFailed = false) :
    (s.after S c).Sound ext := by
  have hS := h.session (h.ok.call hc) (h.ok.call_keeps hc)
  unfold Arrays.after
  cases c with
  | newBuilder n k be ct w t =>
    have hd : rep = .done := by
      unfold Session.call at hc
      dsimp only at hc
      repeat' split at hc
      all_goals cases hc
      · cases hr
      · rfl
    subst hd
    obtain ⟨A, b, hk, hn, hm, rfl⟩ := call_newBuilder_done hc
    exact (hS.append [w]).addBuilder (r := .named n) (k := k) (b := b) (Function.update_self ..) (by
      rw [(mkBuilder_fields hm).1]
      exact List.getElem?_concat_length ..)
  | newAuditor a k be w t =>
    have hd : rep = .done := by
      unfold Session.call at hc
      dsimp only at hc
      repeat' split at hc
      all_goals cases hc
      · cases hr
      · rfl
    subst hd
    obtain ⟨A, ad, hk, hn, ha, hm, rfl⟩ := call_newAuditor_done hc
    obtain ⟨A', b, hA', hb, rfl⟩ : ∃ A' b, A.setAlignment w = .ok A' ∧ mkBuilder be .max A' w t = .ok b ∧ ad = ⟨w, t, b⟩ := by
      unfold mkAuditor at hm
      obtain ⟨A', hA', hm⟩ := bind_ok_iff.mp hm
      obtain ⟨b, hb, hm⟩ := bind_ok_iff.mp hm
      exact ⟨A', b, hA', hb, (Except.ok.inj hm).symm⟩
    have h1 := (hS.append [w, w]).addAuditor (n := a) (w := w) (t := t) (a := s.heap.length) (Function.update_self ..) (by
      dsimp only
      rw [List.getElem?_append_right (le_refl _), Nat.sub_self]; rfl)
    exact h1.addBuilder (r := .ofAuditor a) (k := k) (b := b) (a := s.heap.length + 1) (Function.update_self ..) (by
      dsimp only
      rw [(mkBuilder_fields hb).1, List.getElem?_append_right (Nat.le_succ _), show s.heap.length + 1 - s.heap.length = 1 by omega]; rfl)
  | newFlipset f k r' be x w t =>
    obtain ⟨A, hk, hf, hb, hr', rfl⟩ := call_newFlipset hc
    exact (hS.append [x]).addFlipset (f := f) (k := k) (fs := mkFlipset be A x w t none) (Function.update_self ..)
      (List.getElem?_concat_length ..)
  | newSet _ _ _ _ _ _ _ => exact hS
  | set _ _ => exact hS
  | builder _ _ => exact hS
  | audit _ _ _ _ => exact hS
  | populate _ _ _ _ _ _ => exact hS
  | sort _ _ _ => exact hS

/-! ## Programs -/

theorem Arrays.run_cons {c : ArrStep K} {cs : List (ArrStep K)} (h : s.run ext (c :: cs) = some (s', outs)) :
    ∃ s1 out outs1, s.step ext c = some (s1, out) ∧ s1.run ext cs = some (s', outs1) ∧ outs = out :: outs1 := by
  unfold Arrays.run at h
  cases hst : s.step ext c with
  | none => rw [hst] at h; cases h
  | some q =>
    obtain ⟨s1, out⟩ := q
    rw [hst] at h
    dsimp only at h
    cases hr : s1.run ext cs with
    | none => rw [hr] at h; cases h
    | some q2 =>
      obtain ⟨s2, outs1⟩ := q2
      rw [hr] at h
      cases h
      exact ⟨s1, out, outs1, rfl, hr, rfl⟩

theorem Arrays.Sound.step (h : s.Sound ext) {c : ArrStep K} {out : ArrOut K} (hc : s.step ext c = some (s', out))
    (hw : ∀ a v, c = .write a v → ¬ s.InUse a) : s'.Sound ext ∧
    ((∃ q r, out = .reply q r ∧ s.session.call ext q = some (s'.session, r)) ∨ (callsOf [out] = [] ∧ repliesOf [out] = [] ∧ s'.session = s.session)) := by
  cases c with
  | new v => cases hc; exact ⟨h.append _, Or.inr ⟨rfl, rfl, rfl⟩⟩
  | write a v =>
    unfold Arrays.step at hc
    dsimp only at hc
    by_cases hl : (s.heap[a]?.map List.length) = some v.length
    · rw [if_pos hl] at hc
      cases hc
      refine ⟨h.heap fun n hn => List.getElem?_set_ne ?_, Or.inr ⟨rfl, rfl, rfl⟩⟩
      rintro rfl
      exact hw a v rfl hn
    · rw [if_neg hl] at hc; cases hc
  | call args =>
    unfold Arrays.step at hc
    dsimp only at hc
    rw [h.view] at hc
    cases hq : s.session.call ext (args s.heap) with
    | none => rw [hq] at hc; cases hc
    | some q =>
      obtain ⟨S, r⟩ := q
      rw [hq] at hc
      cases hc
      by_cases hr : r.isFailed = true
      · rw [if_pos hr]
        exact ⟨h.session (h.ok.call hq) (h.ok.call_keeps hq), Or.inl ⟨_, _, rfl, hq⟩⟩
      · rw [if_neg hr]
        refine ⟨h.after hq (by simpa using hr), Or.inl ⟨_, _, rfl, ?_⟩⟩
        rw [hq]
        unfold Arrays.after
        split <;> rfl
  | builderX r =>
    unfold Arrays.step at hc
    dsimp only at hc
    rcases hb : s.session.builders r with _ | ⟨k, b⟩
    · rw [hb] at hc; cases hc
    rw [hb] at hc
    dsimp only at hc
    rcases hx : b.x with _ | x
    · rw [hx] at hc; cases hc
    · rw [hx] at hc
      cases hc
      exact ⟨h.append _, Or.inr ⟨rfl, rfl, rfl⟩⟩
  | builderCoefficients r =>
    unfold Arrays.step at hc
    obtain ⟨a, -, ha⟩ := Option.map_eq_some_iff.mp hc
    cases ha
    exact ⟨h, Or.inr ⟨rfl, rfl, rfl⟩⟩
  | auditorCoefficients r =>
    unfold Arrays.step at hc
    obtain ⟨a, -, ha⟩ := Option.map_eq_some_iff.mp hc
    cases ha
    exact ⟨h, Or.inr ⟨rfl, rfl, rfl⟩⟩
  | flipsetX r =>
    unfold Arrays.step at hc
    obtain ⟨a, -, ha⟩ := Option.map_eq_some_iff.mp hc
    cases ha
    exact ⟨h, Or.inr ⟨rfl, rfl, rfl⟩⟩

theorem run_values (h : s.Sound ext) (hr : s.run ext P = some (s', outs)) (hP : Respects ext s P) :
    s'.Sound ext ∧ s.session.run ext (callsOf outs) = some (s'.session, repliesOf outs) := by
  induction P generalizing s outs with
  | nil => cases hr; exact ⟨h, rfl⟩
  | cons c cs ih =>
    obtain ⟨s1, out, outs1, h1, h2, rfl⟩ := Arrays.run_cons hr
    obtain ⟨p1, p2⟩ := hP
    obtain ⟨g1, g2⟩ := h.step h1 p1
    obtain ⟨q1, q2⟩ := ih g1 h2 (p2 s1 out h1)
    refine ⟨q1, ?_⟩
    rcases g2 with ⟨q, r, rfl, hq⟩ | ⟨e1, e2, e3⟩
    · show s.session.run ext (q :: callsOf outs1) = some (s'.session, r :: repliesOf outs1)
      unfold Session.run
      rw [hq]
      dsimp only
      rw [q2]
    · have f1 : callsOf (out :: outs1) = callsOf outs1 := by
        rw [show out :: outs1 = [out] ++ outs1 from rfl]
        unfold callsOf at e1 ⊢
        rw [List.filterMap_append, e1]; rfl
      have f2 : repliesOf (out :: outs1) = repliesOf outs1 := by
        rw [show out :: outs1 = [out] ++ outs1 from rfl]
        unfold repliesOf at e2 ⊢
        rw [List.filterMap_append, e2]; rfl
      rw [f1, f2, ← e3]
      exact q2

/-- **C114**: a program that never writes to arrays that objects work with gets, whatever else it writes to, exactly the replies that it would get if every
call were given values instead of arrays: the values its arguments have at the time of the call. -/
theorem C114_values (hr : (Arrays.empty : Arrays K).run ext P = some (s', outs)) (hP : Respects ext .empty P) :
    (Session.empty : Session K).run ext (callsOf outs) = some (s'.session, repliesOf outs) ∧ s'.view = s'.session := by
  obtain ⟨h1, h2⟩ := run_values Arrays.Sound.empty hr hP
  exact ⟨h2, h1.view⟩

/-- **C114** (the other direction): no call to the library ever changes an array: every array has the values that the program last wrote to it. -/
theorem C114_untouched (hr : s.run ext P = some (s', outs)) {a : ℕ} (ha : a < s.heap.length) (hP : ∀ v, ArrStep.write a v ∉ P) :
    s'.heap[a]? = s.heap[a]? := by
  induction P generalizing s outs with
  | nil => cases hr; rfl
  | cons c cs ih =>
    obtain ⟨s1, out, outs1, h1, h2, rfl⟩ := Arrays.run_cons hr
    have happ : ∀ l, s1.heap = s.heap ++ l → s1.heap[a]? = s.heap[a]? ∧ a < s1.heap.length := by
      intro l hl
      rw [hl, List.length_append]
      exact ⟨List.getElem?_append_left ha, by omega⟩
    have key : s1.heap[a]? = s.heap[a]? ∧ a < s1.heap.length := by
      cases c with
      | new v => cases h1; exact happ _ rfl
      | write n v =>
        unfold Arrays.step at h1
        dsimp only at h1
        by_cases hl : (s.heap[n]?.map List.length) = some v.length
        · rw [if_pos hl] at h1
          cases h1
          refine ⟨List.getElem?_set_ne ?_, by dsimp only; rw [List.length_set]; exact ha⟩
          rintro rfl
          exact hP v (List.mem_cons_self ..)
        · rw [if_neg hl] at h1; cases h1
      | call args =>
        unfold Arrays.step at h1
        dsimp only at h1
        cases hq : s.view.call ext (args s.heap) with
        | none => rw [hq] at h1; cases h1
        | some q =>
          obtain ⟨S, r⟩ := q
          rw [hq] at h1
          cases h1
          split
          · exact ⟨rfl, ha⟩
          · unfold Arrays.after
            split
            · exact ⟨List.getElem?_append_left ha, by dsimp only; rw [List.length_append]; omega⟩
            · exact ⟨List.getElem?_append_left ha, by dsimp only; rw [List.length_append]; omega⟩
            · exact ⟨List.getElem?_append_left ha, by dsimp only; rw [List.length_append]; omega⟩
            · exact ⟨rfl, ha⟩
      | builderX r =>
        unfold Arrays.step at h1
        dsimp only at h1
        rcases hb : s.session.builders r with _ | ⟨k, b⟩
        · rw [hb] at h1; cases h1
        rw [hb] at h1
        dsimp only at h1
        rcases hx : b.x with _ | x
        · rw [hx] at h1; cases h1
        · rw [hx] at h1
          cases h1
          exact happ _ rfl
      | builderCoefficients r =>
        unfold Arrays.step at h1
        obtain ⟨n, -, hn⟩ := Option.map_eq_some_iff.mp h1
        cases hn
        exact ⟨rfl, ha⟩
      | auditorCoefficients r =>
        unfold Arrays.step at h1
        obtain ⟨n, -, hn⟩ := Option.map_eq_some_iff.mp h1
        cases hn
        exact ⟨rfl, ha⟩
      | flipsetX r =>
        unfold Arrays.step at h1
        obtain ⟨n, -, hn⟩ := Option.map_eq_some_iff.mp h1
        cases hn
        exact ⟨rfl, ha⟩
    rw [ih h2 key.2 fun v hv => hP v (List.mem_cons_of_mem _ hv), key.1]

/-- Arrays that are not in use stay out of use: objects take new arrays for what they keep. -/
theorem step_fresh {c : ArrStep K} {out : ArrOut K} (hc : s.step ext c = some (s', out)) {a : ℕ} (ha : a < s.heap.length)
    (hu : ¬ s.InUse a) : a < s'.heap.length ∧ ¬ s'.InUse a := by
  have upd : ∀ {ι : Type} [DecidableEq ι] (f : ι → Option ℕ) (i : ι) (n : ℕ), a ≠ n → (∀ j, f j ≠ some a) →
      ∀ j, Function.update f i (some n) j ≠ some a := by
    intro ι _ f i n hn hf j
    by_cases e : j = i
    · subst e; rw [Function.update_self]; intro e; cases e; exact hn rfl
    · rw [Function.update_of_ne e]; exact hf j
  have u1 : ∀ r, s.builderW r ≠ some a := fun r e => hu (Or.inl ⟨r, e⟩)
  have u2 : ∀ r, s.auditorW r ≠ some a := fun r e => hu (Or.inr (Or.inl ⟨r, e⟩))
  have u3 : ∀ r, s.flipX r ≠ some a := fun r e => hu (Or.inr (Or.inr ⟨r, e⟩))
  have mk : ∀ {t : Arrays K}, (∀ r, t.builderW r ≠ some a) → (∀ r, t.auditorW r ≠ some a) → (∀ r, t.flipX r ≠ some a) → ¬ t.InUse a := by
    rintro t h1 h2 h3 (⟨r, e⟩ | ⟨r, e⟩ | ⟨r, e⟩)
    · exact h1 r e
    · exact h2 r e
    · exact h3 r e
  have happ : ∀ l : List (List K), a < (s.heap ++ l).length := fun l => by rw [List.length_append]; omega
  cases c with
  | new v => cases hc; exact ⟨happ _, hu⟩
  | write n v =>
    unfold Arrays.step at hc
    dsimp only at hc
    by_cases hl : (s.heap[n]?.map List.length) = some v.length
    · rw [if_pos hl] at hc
      cases hc
      exact ⟨by dsimp only; rw [List.length_set]; exact ha, hu⟩
    · rw [if_neg hl] at hc; cases hc
  | call args =>
    unfold Arrays.step at hc
    dsimp only at hc
    cases hq : s.view.call ext (args s.heap) with
    | none => rw [hq] at hc; cases hc
    | some q =>
      obtain ⟨S, r⟩ := q
      rw [hq] at hc
      cases hc
      split
      · exact ⟨ha, hu⟩
      · unfold Arrays.after
        split
        · exact ⟨happ _, mk (upd _ _ _ (by omega) u1) u2 u3⟩
        · exact ⟨happ _, mk (upd _ _ _ (by omega) u1) (upd _ _ _ (by omega) u2) u3⟩
        · exact ⟨happ _, mk u1 u2 (upd _ _ _ (by omega) u3)⟩
        · exact ⟨ha, hu⟩
  | builderX r =>
    unfold Arrays.step at hc
    dsimp only at hc
    rcases hb : s.session.builders r with _ | ⟨k, b⟩
    · rw [hb] at hc; cases hc
    rw [hb] at hc
    dsimp only at hc
    rcases hx : b.x with _ | x
    · rw [hx] at hc; cases hc
    · rw [hx] at hc
      cases hc
      exact ⟨happ _, hu⟩
  | builderCoefficients r =>
    unfold Arrays.step at hc
    obtain ⟨n, -, hn⟩ := Option.map_eq_some_iff.mp hc
    cases hn
    exact ⟨ha, hu⟩
  | auditorCoefficients r =>
    unfold Arrays.step at hc
    obtain ⟨n, -, hn⟩ := Option.map_eq_some_iff.mp hc
    cases hn
    exact ⟨ha, hu⟩
  | flipsetX r =>
    unfold Arrays.step at hc
    obtain ⟨n, -, hn⟩ := Option.map_eq_some_iff.mp hc
    cases hn
    exact ⟨ha, hu⟩

/-- An array that the program made is not in use. -/
theorem madeBy_fresh (h : s.Sound ext) {c : ArrStep K} {out : ArrOut K} (hc : s.step ext c = some (s', out)) {a : ℕ} (ha : a ∈ madeBy c out) :
    a < s'.heap.length ∧ ¬ s'.InUse a := by
  have key : ∀ l : List K, s.heap.length < (s.heap ++ [l]).length ∧ ¬ s.InUse s.heap.length := fun l =>
    ⟨by rw [List.length_append]; exact Nat.lt_succ_self _, fun hu => absurd (h.inBounds hu) (lt_irrefl _)⟩
  cases c with
  | new v =>
    cases hc
    cases List.mem_singleton.mp ha
    exact key v
  | builderX r =>
    unfold Arrays.step at hc
    dsimp only at hc
    rcases hb : s.session.builders r with _ | ⟨k, b⟩
    · rw [hb] at hc; cases hc
    rw [hb] at hc
    dsimp only at hc
    rcases hx : b.x with _ | x
    · rw [hx] at hc; cases hc
    · rw [hx] at hc
      cases hc
      cases List.mem_singleton.mp ha
      exact key x
  | write _ _ => cases ha
  | call _ => cases ha
  | builderCoefficients _ => cases ha
  | auditorCoefficients _ => cases ha
  | flipsetX _ => cases ha

theorem own_respects (h : s.Sound ext) {own : List ℕ} (ho : ∀ a ∈ own, a < s.heap.length ∧ ¬ s.InUse a) (hP : WritesOwn ext own s P) :
    Respects ext s P := by
  induction P generalizing s own with
  | nil => trivial
  | cons c cs ih =>
    obtain ⟨p1, p2⟩ := hP
    have hw : ∀ a v, c = .write a v → ¬ s.InUse a := fun a v e => (ho a (p1 a v e)).2
    refine ⟨hw, fun s1 out hc => ih (h.step hc hw).1 (fun a ha => ?_) (p2 s1 out hc)⟩
    rcases List.mem_append.mp ha with ha | ha
    · exact madeBy_fresh h hc ha
    · obtain ⟨q1, q2⟩ := ho a ha
      exact step_fresh hc q1 q2

/-- **C114**: programs that write only to arrays they made themselves respect the library, also when they passed these arrays to constructors, setters
and methods before.  So `C114_values` applies to them: what they write has an effect on later calls only through the arguments of these calls. -/
theorem C114_own (hP : WritesOwn ext [] .empty P) : Respects ext .empty P :=
  own_respects Arrays.Sound.empty (fun _ ha => (by cases ha)) hP

/-- **C114**, the getters: after any run of a program that respects arrays in use, the array that a getter returns holds the coefficients or the point of the
object. -/
theorem C114_getters (hr : (Arrays.empty : Arrays K).run ext P = some (s', outs)) (hP : Respects ext .empty P) :
    (∀ r k b x, s'.session.builders r = some (k, b) → b.x = some x →
      ∃ s2 a, s'.step ext (.builderX r) = some (s2, .array a) ∧ s2.heap[a]? = some x ∧ s2.session = s'.session ∧ ¬ s2.InUse a) ∧
    (∀ r s2 out, s'.step ext (.builderCoefficients r) = some (s2, out) →
      s2 = s' ∧ ∃ a k b, out = .array a ∧ s'.session.builders r = some (k, b) ∧ s'.heap[a]? = some b.coefs) ∧
    (∀ n s2 out, s'.step ext (.auditorCoefficients n) = some (s2, out) →
      s2 = s' ∧ ∃ a w t, out = .array a ∧ s'.session.auditors n = some (w, t) ∧ s'.heap[a]? = some w) ∧
    ∀ f s2 out, s'.step ext (.flipsetX f) = some (s2, out) →
      s2 = s' ∧ ∃ a k r fs, out = .array a ∧ s'.session.flipsets f = some (k, r, fs) ∧ s'.heap[a]? = some fs.x := by
  obtain ⟨h, -⟩ := run_values Arrays.Sound.empty hr hP
  refine ⟨fun r k b x hb hx => ?_, fun r s2 out hc => ?_, fun r s2 out hc => ?_, fun r s2 out hc => ?_⟩
  · have hst : s'.step ext (.builderX r) = some ({ s' with heap := s'.heap ++ [x] }, .array s'.heap.length) := by
      unfold Arrays.step
      dsimp only
      rw [hb]
      dsimp only
      rw [hx]
    exact ⟨_, _, hst, List.getElem?_concat_length .., rfl, (madeBy_fresh h hst (List.mem_singleton.mpr rfl)).2⟩
  · unfold Arrays.step at hc
    obtain ⟨a, ha, hn⟩ := Option.map_eq_some_iff.mp hc
    cases hn
    obtain ⟨k, b, h1, h2⟩ := h.builders r a ha
    exact ⟨rfl, a, k, b, rfl, h1, h2⟩
  · unfold Arrays.step at hc
    obtain ⟨a, ha, hn⟩ := Option.map_eq_some_iff.mp hc
    cases hn
    obtain ⟨w, t, h1, h2⟩ := h.auditors r a ha
    exact ⟨rfl, a, w, t, rfl, h1, h2⟩
  · unfold Arrays.step at hc
    obtain ⟨a, ha, hn⟩ := Option.map_eq_some_iff.mp hc
    cases hn
    obtain ⟨k, r', fs, h1, h2⟩ := h.flipsets r a ha
    exact ⟨rfl, a, k, r', fs, rfl, h1, h2⟩

end Recourse
