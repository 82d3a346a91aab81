import Verif.Lemmas.Columns
import Verif.Lemmas.Enum

/-!
# The order of the columns and frozen features (C77, C78)
-/

set_option linter.unusedSectionVars false

namespace Recourse

variable {K : Type} [Field K] [LinearOrder K] [IsStrictOrderedRing K] [FloorRing K]

variable {ext : Ext K} {A A' : ActionSet K} {w w' x x' : List K} {t t' : K} {be be' : Backend} {ct : CostType}
  {o o' : Oracle K} {b b1 b2 b3 d d1 d2 d3 : Builder K} {i i' : Info K} {fr : List (Col K)}

/-! ## Comparison through a map of choices -/

theorem posed_feasible_map {n n' : ℕ} {be be' : Backend} {p p' : BuildArgs K} {b b' : Builder K} {o o' : Oracle K}
    (hok : FeatsOK n p.feats) (hok' : FeatsOK n' p'.feats) (hp : Posed n be p (fun _ => True) b)
    (hp' : Posed n' be' p' (fun _ => True) b') (ho : o.Sound) (ho' : o'.Exact)
    (himp : ∀ κ, ChoiceOK p κ → ∃ κ', ChoiceOK p' κ') (hf : (b.solve o).solutionInfo.feasible = true) :
    (b'.solve o').solutionInfo.feasible = true := by
  rcases hp.solved hok ho with ⟨-, he, -⟩ | ⟨σ, κ, -, -, hk, -, hr, -⟩
  · rw [he] at hf; cases hf
  · rcases hp'.solved hok' ho'.1 with ⟨-, -, hn⟩ | ⟨σ', κ', -, -, -, -, hr', -⟩
    · obtain ⟨κ', hk'⟩ := himp κ hk
      exact absurd ⟨κ', hk', trivial⟩ (hn ho'.2)
    · exact hr'.feasible

theorem posed_bound_map {n n' : ℕ} {be be' : Backend} {p p' : BuildArgs K} {b b' : Builder K} {o o' : Oracle K}
    (hok : FeatsOK n p.feats) (hok' : FeatsOK n' p'.feats) (hp : Posed n be p (fun _ => True) b)
    (hp' : Posed n' be' p' (fun _ => True) b') (ho : o.Exact) (ho' : o'.Exact)
    (himp : ∀ κ, ChoiceOK p κ → ∃ κ', ChoiceOK p' κ' ∧
      choiceObj p.costType p'.feats κ' = choiceObj p.costType p.feats κ) (hct : p'.costType = p.costType)
    (hf : (b.solve o).solutionInfo.feasible = true) :
    ∃ u u', (b.solve o).solutionInfo.upperbound = .fin u ∧ (b'.solve o').solutionInfo.upperbound = .fin u' ∧
      u' ≤ u ∧ (p.costType ≠ .max → (b.solve o).solutionInfo.cost = .fin u ∧
        (b'.solve o').solutionInfo.cost = .fin u') := by
  rcases hp.solved hok ho.1 with ⟨-, he, -⟩ | ⟨σ, κ, -, -, hk, -, hr, hb⟩
  · rw [he] at hf; cases hf
  · obtain ⟨κ0, hk0, ho0⟩ := himp κ hk
    rcases hp'.solved hok' ho'.1 with ⟨-, -, hn⟩ | ⟨σ', κ', -, -, -, -, hr', hb'⟩
    · exact absurd ⟨κ0, hk0, trivial⟩ (hn ho'.2)
    · have hb := hb ho.2
      have hb' := hb' ho'.2
      refine ⟨_, _, hb.bound, hb'.bound, ?_, fun hm => ?_⟩
      · have := hb'.least κ0 hk0 trivial
        rw [hct, ho0] at this
        rw [hct]; exact this
      · obtain ⟨h1, h2⟩ := hr.sum hm
        obtain ⟨h3, h4⟩ := hr'.sum (hct ▸ hm)
        rw [h1, h3, ← h2, ← h4]
        exact ⟨hb.bound, hb'.bound⟩

/-! ## Alignment of columns -/

/-- A column after the alignment of its set. -/
def alignCol (known : Bool) (y : Int) (a : Col K) : Col K :=
  if known then a else (a.1.setFlip (if 0 < y then sgn a.2.1 else -(sgn a.2.1)), a.2)

theorem mkBuilder_cols (h : mkBuilder be ct A w t = .ok b) :
    b.aset.elems.zip (b.coefs.zip x) = (A.elems.zip (w.zip x)).map (alignCol A.alignmentKnown A.yDesired) ∧
      b.aset.yDesired = A.yDesired ∧ b.aset.cons = A.cons ∧ b.aset.names = A.names := by
  obtain ⟨h1, h2, -⟩ := mkBuilder_parts h
  rw [h2]
  by_cases hk : A.alignmentKnown = true
  · rw [if_pos hk] at h1
    rw [← Except.ok.inj h1]
    refine ⟨?_, rfl, rfl, rfl⟩
    have : alignCol (K := K) A.alignmentKnown A.yDesired = id := by
      funext a; unfold alignCol; rw [if_pos hk]; rfl
    rw [this, List.map_id]
  · rw [if_neg hk] at h1
    unfold ActionSet.setAlignment at h1
    simp only [bind_ok_iff] at h1
    obtain ⟨-, -, h1⟩ := h1
    rw [← Except.ok.inj h1]
    refine ⟨?_, rfl, rfl, rfl⟩
    dsimp only
    have hf : A.alignmentKnown = false := by simpa using hk
    rw [hf]
    generalize A.elems = es
    clear h h1 h2
    induction es generalizing w x with
    | nil => rfl
    | cons e es ih =>
      cases w with
      | nil => rfl
      | cons v w =>
        cases x with
        | nil => simp
        | cons u x =>
          simp only [List.map_cons, List.zip_cons_cons, List.zipWith_cons_cons, List.cons.injEq]
          exact ⟨rfl, ih⟩

/-- A feature is frozen in a column: not actionable, or without influence on the classifier when the set is
aligned. -/
def FrozenCol (known : Bool) (a : Col K) : Prop := a.1.actionable = false ∨ (a.2.1 = 0 ∧ known = false)

theorem frozen_none {y : Int} {known : Bool} {a : Col K} (h : FrozenCol known a)
    (ha : known = true → a.1.aligned = true) : colFeat ext ct y (alignCol known y a) = .ok none := by
  unfold colFeat stage
  rw [if_neg]
  have key : (alignCol known y a).1.compatible = some false := by
    unfold alignCol Elem.compatible
    cases known with
    | true =>
      have ha := ha rfl
      rcases h with h | ⟨-, h⟩
      · unfold Elem.aligned at ha
        simp only [if_true]
        cases hf : a.1.flip with
        | none => rw [hf] at ha; cases ha
        | some f => dsimp only; rw [h]; rfl
      · cases h
    | false =>
      simp only [Bool.false_eq_true, if_false, Elem.setFlip]
      rcases h with h | ⟨h, -⟩
      · rw [h]; rfl
      · rw [h]; simp
  show ¬ ((alignCol known y a).1.compatible.getD true = true)
  rw [key]
  simp

theorem frozen_mapM {y : Int} {known : Bool} {l : List (Col K)} (h : ∀ a ∈ l, FrozenCol known a)
    (ha : ∀ a ∈ l, known = true → a.1.aligned = true) {r : List (Option (Feat K))}
    (hr : (l.map (alignCol known y)).mapM (colFeat ext ct y) = .ok r) : r.reduceOption = [] := by
  induction l generalizing r with
  | nil => cases hr; rfl
  | cons a l ih =>
    rw [List.map_cons] at hr
    obtain ⟨u, r', h1, h2, rfl⟩ := mapM_ok_cons.mp hr
    rw [frozen_none (h a (List.mem_cons_self ..)) (ha a (List.mem_cons_self ..))] at h1
    cases h1
    rw [List.reduceOption_cons_of_none]
    exact ih (fun a h' => h a (List.mem_cons_of_mem _ h')) (fun a h' => ha a (List.mem_cons_of_mem _ h')) h2

theorem frozen_mapM_ok {y : Int} {known : Bool} {l : List (Col K)} (h : ∀ a ∈ l, FrozenCol known a)
    (ha : ∀ a ∈ l, known = true → a.1.aligned = true) :
    ∃ r, (l.map (alignCol known y)).mapM (colFeat ext ct y) = .ok r := by
  induction l with
  | nil => exact ⟨[], rfl⟩
  | cons a l ih =>
    obtain ⟨r, hr⟩ := ih (fun a h' => h a (List.mem_cons_of_mem _ h')) fun a h' => ha a (List.mem_cons_of_mem _ h')
    exact ⟨none :: r, mapM_ok_cons.mpr ⟨none, r, frozen_none (h a (List.mem_cons_self ..)) (ha a (List.mem_cons_self ..)),
      hr, rfl⟩⟩

theorem dot_cols {es : List (Elem K)} {w x : List K} (hw : w.length = es.length) (hx : x.length = es.length) :
    dot w x = ((es.zip (w.zip x)).map fun a => a.2.1 * a.2.2).sum := by
  induction es generalizing w x with
  | nil =>
    rw [List.length_eq_zero_iff.mp hw]; simp [dot]
  | cons e es ih =>
    cases w with
    | nil => cases hw
    | cons v w =>
      cases x with
      | nil => cases hx
      | cons u x =>
        have := ih (w := w) (x := x) (Nat.succ.inj hw) (Nat.succ.inj hx)
        unfold dot at this ⊢
        simp only [List.zipWith_cons_cons, List.zip_cons_cons, List.map_cons, List.sum_cons, this]

/-- The two builders: the first has the columns of the second and frozen ones. -/
structure Reduced (A A' : ActionSet K) (w w' x x' : List K) (t t' : K) (fr : List (Col K)) : Prop where
  y : A'.yDesired = A.yDesired
  cons : A.cons.items = []
  cons' : A'.cons.items = []
  cols : (A.elems.zip (w.zip x)).Perm (fr ++ A'.elems.zip (w'.zip x'))
  frozen : ∀ a ∈ fr, FrozenCol A.alignmentKnown a
  known : A'.alignmentKnown = A.alignmentKnown
  shift : t' = t + (fr.map fun a => a.2.1 * a.2.2).sum

section
variable (hA : A.Reachable ext) (hA' : A'.Reachable ext) (h : Reduced A A' w w' x x' t t' fr)
  (hb : mkBuilder be ct A w t = .ok b) (hd : mkBuilder be' ct A' w' t' = .ok d)
  (hx : x.length = w.length) (hx' : x'.length = w'.length)
include hA hA' h hb hd hx hx'

theorem Reduced.features : ∀ feats, b.buildInfo ext x = .ok feats → ∃ R R' : List (Feat K),
    d.buildInfo ext x' = .ok (R'.map (Feat.place d.varNames)) ∧
    feats = R.map (Feat.place b.varNames) ∧ R.Perm R' := by
  intro feats hf
  have rb : BuilderOK ext b := (Builder.Reachable.mk hA hb).ok
  have rd : BuilderOK ext d := (Builder.Reachable.mk hA' hd).ok
  obtain ⟨q1, q2, q3, q4⟩ := mkBuilder_cols (x := x) hb
  obtain ⟨s1, s2, s3, s4⟩ := mkBuilder_cols (x := x') hd
  have c1 := (mkBuilder_parts hb).2.1
  have c2 := (mkBuilder_parts hd).2.1
  have t1 := (mkBuilder_parts hb).2.2.2.1
  have t2 := (mkBuilder_parts hd).2.2.2.1
  obtain ⟨r, h1, h2⟩ := (buildInfo_cols rb (by rw [q3]; exact h.cons) (by rw [c1]; exact hx) feats).mp hf
  rw [q1, q2, t1] at h1
  have hp := h.cols.map (alignCol A.alignmentKnown A.yDesired)
  obtain ⟨r1, h3, h4⟩ := mapM_perm hp h1
  rw [List.map_append, mapM_append_ok] at h3
  obtain ⟨r2, r3, h5, h6, rfl⟩ := h3
  have ha : ∀ a ∈ fr, A.alignmentKnown = true → a.1.aligned = true := by
    intro a ha hk
    have : a ∈ A.elems.zip (w.zip x) := h.cols.mem_iff.mpr (List.mem_append_left _ ha)
    exact List.all_eq_true.mp hk a.1 (List.of_mem_zip this).1
  have hz := frozen_mapM h.frozen ha h5
  refine ⟨r.reduceOption, r3.reduceOption, ?_, h2, ?_⟩
  · refine (buildInfo_cols rd (by rw [s3]; exact h.cons') (by rw [c2]; exact hx') _).mpr ⟨r3, ?_, rfl⟩
    rw [s1, s2, t2, h.y, h.known]
    exact h6
  · have := h4.filterMap id
    have e : ∀ l : List (Option (Feat K)), l.filterMap id = l.reduceOption := fun _ => rfl
    rw [e, e, List.reduceOption_append, hz, List.nil_append] at this
    exact this

theorem Reduced.features_back : ∀ feats', d.buildInfo ext x' = .ok feats' → ∃ feats, b.buildInfo ext x = .ok feats := by
  intro feats' hf
  have rb : BuilderOK ext b := (Builder.Reachable.mk hA hb).ok
  have rd : BuilderOK ext d := (Builder.Reachable.mk hA' hd).ok
  obtain ⟨q1, q2, q3, q4⟩ := mkBuilder_cols (x := x) hb
  obtain ⟨s1, s2, s3, s4⟩ := mkBuilder_cols (x := x') hd
  have c1 := (mkBuilder_parts hb).2.1
  have c2 := (mkBuilder_parts hd).2.1
  have t1 := (mkBuilder_parts hb).2.2.2.1
  have t2 := (mkBuilder_parts hd).2.2.2.1
  obtain ⟨r, h1, h2⟩ := (buildInfo_cols rd (by rw [s3]; exact h.cons') (by rw [c2]; exact hx') feats').mp hf
  rw [s1, s2, t2, h.y, h.known] at h1
  have ha : ∀ a ∈ fr, A.alignmentKnown = true → a.1.aligned = true := by
    intro a ha hk
    have : a ∈ A.elems.zip (w.zip x) := h.cols.mem_iff.mpr (List.mem_append_left _ ha)
    exact List.all_eq_true.mp hk a.1 (List.of_mem_zip this).1
  obtain ⟨r0, h0⟩ := frozen_mapM_ok (ext := ext) (ct := ct) (y := A.yDesired) h.frozen ha
  have hp := h.cols.map (alignCol A.alignmentKnown A.yDesired)
  rw [List.map_append] at hp
  obtain ⟨r1, h3, -⟩ := mapM_perm hp.symm (mapM_append_ok.mpr ⟨r0, r, h0, h1, rfl⟩)
  refine ⟨_, (buildInfo_cols rb (by rw [q3]; exact h.cons) (by rw [c1]; exact hx) _).mpr ⟨r1, ?_, rfl⟩⟩
  rw [q1, q2, t1]
  exact h3

theorem Reduced.score : d.score x' = b.score x := by
  have rb : BuilderOK ext b := (Builder.Reachable.mk hA hb).ok
  have rd : BuilderOK ext d := (Builder.Reachable.mk hA' hd).ok
  have q4 := (mkBuilder_cols (x := x) hb).2.2.2
  have s4 := (mkBuilder_cols (x := x') hd).2.2.2
  have c1 := (mkBuilder_parts hb).2.1
  have c2 := (mkBuilder_parts hd).2.1
  have i1 := (mkBuilder_parts hb).2.2.1
  have i2 := (mkBuilder_parts hd).2.2.1
  have l1 : w.length = A.elems.length := by rw [hA.wf.length, ← q4, ← rb.coefs, c1]
  have l2 : w'.length = A'.elems.length := by rw [hA'.wf.length, ← s4, ← rd.coefs, c2]
  unfold Builder.score
  rw [c1, c2, i1, i2, dot_cols l1 (hx.trans l1), dot_cols l2 (hx'.trans l2), h.shift,
    (h.cols.map fun a : Col K => a.2.1 * a.2.2).sum_eq, List.map_append, List.sum_append]
  ring

end

/-- How `build_mip` ends without subset limits. -/
theorem buildMip_free (be : Backend) {p : BuildArgs K} (hl : p.limits = []) :
    (buildMip be p).map (fun _ => ()) = if p.costType ≠ .max ∧ p.feats.isEmpty = true then .error .key else .ok () := by
  have h1 : (buildMip be p).map (fun _ => ()) = (buildMip .cpx p).map (fun _ => ()) := by
    cases be with
    | cpx => rfl
    | pymip => exact (buildMip_status p).symm
  rw [h1]
  unfold buildMip buildCpx
  dsimp only
  rw [hl]
  by_cases hc : p.costType ≠ .max ∧ p.feats.isEmpty = true
  · rw [if_pos hc]; simp only [List.mapM_nil, pure, Except.pure, ok_bind]; rw [if_pos hc]; rfl
  · rw [if_neg hc]; simp only [List.mapM_nil, pure, Except.pure, ok_bind]; rw [if_neg hc]; rfl

theorem Reduced.accepts (hA : A.Reachable ext) (hA' : A'.Reachable ext) (h : Reduced A A' w w' x x' t t' fr)
    (hb : mkBuilder be ct A w t = .ok b) (hd : mkBuilder be' ct A' w' t' = .ok d)
    (hx : x.length = w.length) (hx' : x'.length = w'.length) :
    (d.setX ext x').2 = .ok () ↔ (b.setX ext x).2 = .ok () := by
  have q3 := (mkBuilder_cols (x := x) hb).2.2.1
  have s3 := (mkBuilder_cols (x := x') hd).2.2.1
  have c1 := (mkBuilder_parts hb).2.1
  have c2 := (mkBuilder_parts hd).2.1
  have t1 := (mkBuilder_parts hb).2.2.2.1
  have t2 := (mkBuilder_parts hd).2.2.2.1
  rw [setX_status, setX_status, if_neg (by rw [c2]; exact not_not.mpr hx'), if_neg (by rw [c1]; exact not_not.mpr hx)]
  have st : ∀ feats feats', b.buildInfo ext x = .ok feats → d.buildInfo ext x' = .ok feats' →
      ((buildMip d.backend (d.buildArgs x' feats')).map fun _ => ()) =
        (buildMip b.backend (b.buildArgs x feats)).map fun _ => () := by
    intro feats feats' hf hf'
    obtain ⟨R, R', h1, h2, h3⟩ := h.features hA hA' hb hd hx hx' feats hf
    rw [hf'] at h1
    obtain rfl := Except.ok.inj h1
    subst h2
    rw [buildMip_free _ (by unfold Builder.buildArgs; dsimp only; rw [s3]; exact h.cons'),
      buildMip_free _ (by unfold Builder.buildArgs; dsimp only; rw [q3]; exact h.cons)]
    unfold Builder.buildArgs
    dsimp only
    rw [t1, t2]
    have : (R'.map (Feat.place d.varNames)).isEmpty = (R.map (Feat.place b.varNames)).isEmpty := by
      rw [List.isEmpty_map, List.isEmpty_map, Bool.eq_iff_iff, List.isEmpty_iff, List.isEmpty_iff,
        ← List.length_eq_zero_iff, ← List.length_eq_zero_iff, h3.length_eq]
    rw [this]
  constructor
  · intro hs
    cases hf' : d.buildInfo ext x' with
    | error e => rw [hf'] at hs; cases hs
    | ok feats' =>
      obtain ⟨feats, hf⟩ := h.features_back hA hA' hb hd hx hx' feats' hf'
      rw [hf'] at hs
      rw [hf]
      simp only [ok_bind] at hs ⊢
      rw [← st feats feats' hf hf']
      exact hs
  · intro hs
    cases hf : b.buildInfo ext x with
    | error e => rw [hf] at hs; cases hs
    | ok feats =>
      obtain ⟨R, R', h1, -, -⟩ := h.features hA hA' hb hd hx hx' feats hf
      rw [hf] at hs
      rw [h1]
      simp only [ok_bind] at hs ⊢
      rw [st feats _ hf h1]
      exact hs

theorem moved_of {n : ℕ} {ns ns' : List String} {R R' : List (Feat K)} (hp : R.Perm R')
    (hok : FeatsOK n (R'.map (Feat.place ns'))) (hn : ns'.length = n) :
    Moved ns ns' (R.map (Feat.place ns)) (R'.map (Feat.place ns')) where
  perm := by
    rw [List.map_map]
    exact hp.symm.map _
  mem := by
    intro f hf
    obtain ⟨g, hg, rfl⟩ := List.mem_map.mp hf
    have := hok.lt (g.place ns') (List.mem_map_of_mem (hp.mem_iff.mp hg))
    rw [← hn] at this
    exact List.idxOf_lt_length_iff.mp this
  idx := by
    intro f hf
    obtain ⟨g, -, rfl⟩ := List.mem_map.mp hf
    rfl

theorem Reduced.answers (hso : SetOrderOk ext) (hA : A.Reachable ext) (hA' : A'.Reachable ext)
    (h : Reduced A A' w w' x x' t t' fr)
    (hb : mkBuilder be ct A w t = .ok b) (hd : mkBuilder be' ct A' w' t' = .ok d)
    (ho : o.Exact) (ho' : o'.Exact) (hx : b.setX ext x = (b1, .ok ())) (hx' : d.setX ext x' = (d1, .ok ()))
    (hr : b1.Refitted o b2) (hr' : d1.Refitted o' d2)
    (hf : b2.fit o = .ok (b3, i)) (hf' : d2.fit o' = .ok (d3, i')) :
    i'.feasible = i.feasible ∧ i'.upperbound = i.upperbound ∧ (ct ≠ .max → i'.cost = i.cost) := by
  have rb : b.Reachable ext := .mk hA hb
  have rd : d.Reachable ext := .mk hA' hd
  obtain ⟨-, c1, -, t1, v1, m1, -⟩ := mkBuilder_parts hb
  obtain ⟨-, c2, -, t2, v2, m2, -⟩ := mkBuilder_parts hd
  have M1 := (mkBuilder_offers hA hb).2.2.2.2.2.2
  have M2 := (mkBuilder_offers hA' hd).2.2.2.2.2.2
  obtain ⟨-, q2, q3, q4⟩ := mkBuilder_cols (x := x) hb
  obtain ⟨-, s2, s3, s4⟩ := mkBuilder_cols (x := x') hd
  have lx : x.length = w.length := by
    obtain ⟨_, _, h0, -⟩ := setX_ok hx
    rw [← c1]; exact h0
  have lx' : x'.length = w'.length := by
    obtain ⟨_, _, h0, -⟩ := setX_ok hx'
    rw [← c2]; exact h0
  obtain ⟨feats, a1, a2, a3⟩ := Posed.setX hso rb.ok hx
  obtain ⟨feats', e1, e2, e3⟩ := Posed.setX hso rd.ok hx'
  have hN1 : feats.length ≤ b.maxItems := by
    have := feats_length_le hso rb.ok a1
    rw [M1, ← (mkBuilder_offers hA hb).1.numActionable]; exact this
  have hN2 : feats'.length ≤ d.maxItems := by
    have := feats_length_le hso rd.ok e1
    rw [M2, ← (mkBuilder_offers hA' hd).1.numActionable]; exact this
  obtain ⟨R, R', g1, g2, g3⟩ := h.features hA hA' hb hd lx lx' feats a1
  rw [e1] at g1
  obtain rfl := Except.ok.inj g1
  subst g2
  have hs := h.score hA hA' hb hd lx lx'
  have nb : b.varNames.length = b.coefs.length := by rw [rb.ok.names, rb.ok.coefs]
  have nd : d.varNames.length = d.coefs.length := by rw [rd.ok.names, rd.ok.coefs]
  have mv := moved_of (ns := b.varNames) g3 e2 nd
  have mv' := moved_of (ns := d.varNames) g3.symm a2 nb
  have fw : ∀ κ, ChoiceOK (b.buildArgs x (R.map (Feat.place b.varNames))) κ →
      ∃ κ', ChoiceOK (d.buildArgs x' (R'.map (Feat.place d.varNames))) κ' ∧
        choiceObj (b.buildArgs x (R.map (Feat.place b.varNames))).costType (R'.map (Feat.place d.varNames)) κ' =
        choiceObj (b.buildArgs x (R.map (Feat.place b.varNames))).costType (R.map (Feat.place b.varNames)) κ := by
    intro κ hκ
    refine ⟨_, mv.ok κ (p := b.buildArgs x (R.map (Feat.place b.varNames)))
      (p' := d.buildArgs x' (R'.map (Feat.place d.varNames))) rfl rfl ?_ ?_ hN2 hs ?_ hκ, mv.obj κ _⟩
    · unfold Builder.buildArgs; dsimp only; rw [s3]; exact h.cons'
    · unfold Builder.buildArgs; dsimp only; rw [m1, m2]
    · unfold Builder.buildArgs; dsimp only; rw [s2, q2, h.y]
  have bw : ∀ κ, ChoiceOK (d.buildArgs x' (R'.map (Feat.place d.varNames))) κ →
      ∃ κ', ChoiceOK (b.buildArgs x (R.map (Feat.place b.varNames))) κ' ∧
        choiceObj (d.buildArgs x' (R'.map (Feat.place d.varNames))).costType (R.map (Feat.place b.varNames)) κ' =
        choiceObj (d.buildArgs x' (R'.map (Feat.place d.varNames))).costType (R'.map (Feat.place d.varNames)) κ := by
    intro κ hκ
    refine ⟨_, mv'.ok κ (p := d.buildArgs x' (R'.map (Feat.place d.varNames)))
      (p' := b.buildArgs x (R.map (Feat.place b.varNames))) rfl rfl ?_ ?_ hN1 hs.symm ?_ hκ,
      mv'.obj κ _⟩
    · unfold Builder.buildArgs; dsimp only; rw [q3]; exact h.cons
    · unfold Builder.buildArgs; dsimp only; rw [m1, m2]
    · unfold Builder.buildArgs; dsimp only; rw [s2, q2, h.y]
  obtain ⟨-, -, rfl⟩ := fit_ok hf
  obtain ⟨-, -, rfl⟩ := fit_ok hf'
  have pb := a3.refitted hr
  have pd := e3.refitted hr'
  have k1 : (b.buildArgs x (R.map (Feat.place b.varNames))).costType = ct := t1
  have k2 : (d.buildArgs x' (R'.map (Feat.place d.varNames))).costType = ct := t2
  have fwe := fun κ hκ => (fw κ hκ).imp fun _ h => h.1
  have bwe := fun κ hκ => (bw κ hκ).imp fun _ h => h.1
  cases hfi : (b2.solve o).solutionInfo.feasible with
  | true =>
    have hfi' := posed_feasible_map a2 e2 pb pd ho.1 ho' fwe hfi
    refine ⟨hfi', ?_⟩
    obtain ⟨u, u', z1, z2, z3, z4⟩ := posed_bound_map a2 e2 pb pd ho ho' fw (by rw [k1, k2]) hfi
    obtain ⟨v, v', y1, y2, y3, -⟩ := posed_bound_map e2 a2 pd pb ho' ho bw (by rw [k1, k2]) hfi'
    rw [z2] at y1; rw [z1] at y2
    cases y1; cases y2
    have : u' = u := le_antisymm z3 y3
    subst this
    refine ⟨by rw [z1, z2], fun hm => ?_⟩
    obtain ⟨n1, n2⟩ := z4 (by rw [k1]; exact hm)
    rw [n1, n2]
  | false =>
    have hfi' : (d2.solve o').solutionInfo.feasible = false := by
      cases hc : (d2.solve o').solutionInfo.feasible with
      | false => rfl
      | true => rw [posed_feasible_map e2 a2 pd pb ho'.1 ho bwe hc] at hfi; cases hfi
    refine ⟨hfi', ?_⟩
    have : ∀ {n be p P} {b : Builder K} {o : Oracle K}, FeatsOK n p.feats → Posed n be p P b → o.Sound →
        (b.solve o).solutionInfo.feasible = false → (b.solve o).solutionInfo = emptyInfo := by
      intro n be p P b o g1 g2 g3 g4
      rcases g2.solved g1 g3 with ⟨-, he, -⟩ | ⟨σ, κ, -, -, -, -, hr, -⟩
      · exact he
      · rw [hr.feasible] at g4; cases g4
    rw [this a2 pb ho.1 hfi, this e2 pd ho'.1 hfi']
    exact ⟨rfl, fun _ => rfl⟩

theorem zip_elems {es : List (Elem K)} {w x : List K} (hw : w.length = es.length) (hx : x.length = es.length) :
    (es.zip (w.zip x)).map (·.1) = es := by
  rw [List.map_fst_zip]
  rw [List.length_zip, hw, hx, min_self]

theorem reduced_of_perm (hA : A.Reachable ext) (hA' : A'.Reachable ext) (hy : A'.yDesired = A.yDesired)
    (hc : A.cons.items = []) (hc' : A'.cons.items = [])
    (hp : (A'.elems.zip (w'.zip x')).Perm (A.elems.zip (w.zip x)))
    (hb : mkBuilder be ct A w t = .ok b) (hd : mkBuilder be' ct A' w' t = .ok d)
    (hx : x.length = w.length) (hx' : x'.length = w'.length) : Reduced A A' w w' x x' t t [] where
  y := hy
  cons := hc
  cons' := hc'
  cols := hp.symm
  frozen := by intro a ha; cases ha
  known := by
    have rb : BuilderOK ext b := (Builder.Reachable.mk hA hb).ok
    have rd : BuilderOK ext d := (Builder.Reachable.mk hA' hd).ok
    have q4 := (mkBuilder_cols (x := x) hb).2.2.2
    have s4 := (mkBuilder_cols (x := x') hd).2.2.2
    have l1 : w.length = A.elems.length := by rw [hA.wf.length, ← q4, ← rb.coefs, (mkBuilder_parts hb).2.1]
    have l2 : w'.length = A'.elems.length := by rw [hA'.wf.length, ← s4, ← rd.coefs, (mkBuilder_parts hd).2.1]
    have := hp.map (·.1)
    rw [zip_elems l1 (hx.trans l1), zip_elems l2 (hx'.trans l2)] at this
    unfold ActionSet.alignmentKnown
    exact this.all_eq
  shift := by simp

/-! ## C77: the order of the columns -/

/-- **C77**, acceptance (partial: without subset limits).  If the columns (feature, coefficient, value) of two sets are
the same in another order, the one point is accepted iff the other one is. -/
theorem C77_accepts_partial (hA : A.Reachable ext) (hA' : A'.Reachable ext) (hy : A'.yDesired = A.yDesired)
    (hc : A.cons.items = []) (hc' : A'.cons.items = [])
    (hp : (A'.elems.zip (w'.zip x')).Perm (A.elems.zip (w.zip x)))
    (hb : mkBuilder be ct A w t = .ok b) (hd : mkBuilder be' ct A' w' t = .ok d)
    (hx : x.length = w.length) (hx' : x'.length = w'.length) :
    (d.setX ext x').2 = .ok () ↔ (b.setX ext x).2 = .ok () :=
  (reduced_of_perm hA hA' hy hc hc' hp hb hd hx hx').accepts hA hA' hb hd hx hx'

/-- **C77** (partial: without subset limits; with them it is false, `C77_limits_refuted`).  The order of the columns
does not matter: if the columns (feature, coefficient, value) of two sets are the same in another order, there is
recourse for the one iff there is for the other, and the objective (for total and local costs, the cost reported) is
the same.  Any back ends, exact solvers and refits. -/
theorem C77_order_partial (hso : SetOrderOk ext) (hA : A.Reachable ext) (hA' : A'.Reachable ext)
    (hy : A'.yDesired = A.yDesired) (hc : A.cons.items = []) (hc' : A'.cons.items = [])
    (hp : (A'.elems.zip (w'.zip x')).Perm (A.elems.zip (w.zip x)))
    (hb : mkBuilder be ct A w t = .ok b) (hd : mkBuilder be' ct A' w' t = .ok d)
    (ho : o.Exact) (ho' : o'.Exact) (hx : b.setX ext x = (b1, .ok ())) (hx' : d.setX ext x' = (d1, .ok ()))
    (hr : b1.Refitted o b2) (hr' : d1.Refitted o' d2)
    (hf : b2.fit o = .ok (b3, i)) (hf' : d2.fit o' = .ok (d3, i')) :
    i'.feasible = i.feasible ∧ i'.upperbound = i.upperbound ∧ (ct ≠ .max → i'.cost = i.cost) := by
  have lx : x.length = w.length := by
    obtain ⟨_, _, h0, -⟩ := setX_ok hx
    rw [← (mkBuilder_parts hb).2.1]; exact h0
  have lx' : x'.length = w'.length := by
    obtain ⟨_, _, h0, -⟩ := setX_ok hx'
    rw [← (mkBuilder_parts hd).2.1]; exact h0
  exact (reduced_of_perm hA hA' hy hc hc' hp hb hd lx lx').answers hso hA hA' hb hd ho ho' hx hx' hr hr' hf hf'

theorem mapM_getElem {α β ε : Type} {F : α → Except ε β} {l : List α} {r : List β} (h : l.mapM F = .ok r) {j : ℕ} :
    (∀ a, l[j]? = some a → ∃ v, r[j]? = some v ∧ F a = .ok v) ∧ (∀ v, r[j]? = some v → ∃ a, l[j]? = some a) := by
  induction l generalizing r j with
  | nil =>
    cases h
    exact ⟨fun a ha => by simp at ha, fun v hv => by simp at hv⟩
  | cons a l ih =>
    obtain ⟨u, r', h1, h2, rfl⟩ := mapM_ok_cons.mp h
    cases j with
    | zero =>
      refine ⟨fun a' ha => ?_, fun v _ => ⟨a, rfl⟩⟩
      obtain rfl := Option.some.inj ha
      exact ⟨u, rfl, h1⟩
    | succ j => exact ih h2

/-- Sets made from the same data with the columns in another order have the same columns. -/
theorem C77_new (ext : Ext K) {X X' : List (List K)} {names names' : List String} {y : Int} {custom : List (String × PyVal K)}
    {dflt st : PyVal K} (h : mkActionSet X names y custom dflt st = .ok A)
    (h' : mkActionSet X' names' y custom dflt st = .ok A') (hn : names'.Perm names)
    (hX : ∀ n ∈ names, column X' (names'.idxOf n) = column X (names.idxOf n))
    (hw : w.length = names.length) (hx : x.length = names.length) (hw' : w'.length = names'.length)
    (hx' : x'.length = names'.length) (hwn : ∀ n ∈ names, w'[names'.idxOf n]? = w[names.idxOf n]?)
    (hxn : ∀ n ∈ names, x'[names'.idxOf n]? = x[names.idxOf n]?) :
    (A'.elems.zip (w'.zip x')).Perm (A.elems.zip (w.zip x)) := by
  have key : ∀ {X X' : List (List K)} {names names' : List String} {A A' : ActionSet K} {w w' x x' : List K},
      mkActionSet X names y custom dflt st = .ok A → mkActionSet X' names' y custom dflt st = .ok A' →
      (∀ n ∈ names, n ∈ names') → names.Nodup → (A'.elems.length = names'.length) →
      (∀ n ∈ names, column X' (names'.idxOf n) = column X (names.idxOf n)) →
      (∀ n ∈ names, w'[names'.idxOf n]? = w[names.idxOf n]?) →
      (∀ n ∈ names, x'[names'.idxOf n]? = x[names.idxOf n]?) →
      ∀ a ∈ A.elems.zip (w.zip x), a ∈ A'.elems.zip (w'.zip x') := by
    intro X X' names names' A A' w w' x x' h h' hn hd hl hX hwn hxn a ha
    unfold mkActionSet at h h'
    simp only [bind_ok_iff] at h h'
    obtain ⟨-, -, -, -, -, -, es, h1, -, -, h⟩ := h
    obtain ⟨-, -, -, -, -, -, es', h1', -, -, h'⟩ := h'
    have he : A.elems = es := by rw [← Except.ok.inj h]
    have he' : A'.elems = es' := by rw [← Except.ok.inj h']
    rw [he] at ha
    rw [he']
    obtain ⟨j, hj⟩ := List.mem_iff_getElem?.mp ha
    rw [List.getElem?_zip_eq_some, List.getElem?_zip_eq_some] at hj
    obtain ⟨j1, j2, j3⟩ := hj
    obtain ⟨p, hp⟩ := (mapM_getElem h1).2 _ j1
    obtain ⟨v, g1, g2⟩ := (mapM_getElem h1).1 _ hp
    rw [j1] at g1
    obtain rfl := Option.some.inj g1
    rw [List.getElem?_zipIdx, Option.map_eq_some_iff] at hp
    obtain ⟨n, hnj, rfl⟩ := hp
    have hmem : n ∈ names := List.mem_of_getElem? hnj
    have hidx : names.idxOf n = j := by
      obtain ⟨hlt, he⟩ := List.getElem?_eq_some_iff.mp hnj
      rw [← he]; exact hd.idxOf_getElem j hlt
    have hlt' : names'.idxOf n < names'.length := List.idxOf_lt_length_iff.mpr (hn n hmem)
    have hp' : names'.zipIdx[names'.idxOf n]? = some (n, names'.idxOf n) := by
      rw [List.getElem?_zipIdx, List.getElem?_eq_getElem hlt', List.getElem_idxOf]; simp
    obtain ⟨v', k1, k2⟩ := (mapM_getElem h1').1 _ hp'
    have hcol := hX n hmem
    rw [hidx] at hcol
    have : v' = a.1 := by
      have e : mkColumn X' custom dflt st (names'.idxOf n) n = mkColumn X custom dflt st j n := by
        unfold mkColumn; rw [hcol]
      dsimp only at k2 g2
      rw [e] at k2
      simp only [Nat.zero_add] at g2
      rw [k2] at g2
      exact Except.ok.inj g2
    subst this
    refine List.mem_of_getElem? (i := names'.idxOf n) ?_
    rw [List.getElem?_zip_eq_some, List.getElem?_zip_eq_some]
    refine ⟨k1, ?_, ?_⟩
    · rw [hwn n hmem, hidx]; exact j2
    · rw [hxn n hmem, hidx]; exact j3
  have W : A.WF ext := (ActionSet.Reachable.mk h).wf
  have W' : A'.WF ext := (ActionSet.Reachable.mk h').wf
  have hN : A.names = names := (mkActionSet_spec h).2.2.2.2.2.1
  have hN' : A'.names = names' := (mkActionSet_spec h').2.2.2.2.2.1
  have hl : A.elems.length = names.length := by rw [W.length, hN]
  have hl' : A'.elems.length = names'.length := by rw [W'.length, hN']
  have nd : (A.elems.zip (w.zip x)).Nodup := by
    refine List.Nodup.of_map (fun a => a.1.name) ?_
    rw [show (fun a : Col K => a.1.name) = (fun e : Elem K => e.name) ∘ (fun a : Col K => a.1) from rfl, ← List.map_map,
      zip_elems (hw.trans hl.symm) (hx.trans hl.symm), W.names]
    exact W.distinct
  have nd' : (A'.elems.zip (w'.zip x')).Nodup := by
    refine List.Nodup.of_map (fun a => a.1.name) ?_
    rw [show (fun a : Col K => a.1.name) = (fun e : Elem K => e.name) ∘ (fun a : Col K => a.1) from rfl, ← List.map_map,
      zip_elems (hw'.trans hl'.symm) (hx'.trans hl'.symm),
      W'.names]
    exact W'.distinct
  rw [List.perm_ext_iff_of_nodup nd' nd]
  intro a
  constructor
  · exact key h' h (fun n hm => hn.mem_iff.mp hm) (hN' ▸ W'.distinct) hl (fun n hm => (hX n (hn.mem_iff.mp hm)).symm)
      (fun n hm => (hwn n (hn.mem_iff.mp hm)).symm) (fun n hm => (hxn n (hn.mem_iff.mp hm)).symm) a
  · exact key h h' (fun n hm => hn.mem_iff.mpr hm) (hN ▸ W.distinct) hl' hX hwn hxn a

/-- With subset limits C77 is false: with at most one of `a` and `b` nonzero, the same point is accepted for the columns
`a, b, z` and raises `IndexError` for the columns `z, a, b`. -/
theorem C77_limits_refuted (be : Backend) (ct : CostType) : ∃ b : Builder ℚ,
    exBuilderE be ct [[0, 0, 0], [1, 1, 1]] ["a", "b", "z"]
      (fun A => (A.addConstraint ["a", "b"] 0 1 none).map (·.1)) [1, 1, 0] (-1) = .ok b ∧
    (b.setX exExt [0, 0, 0]).2 = .ok () ∧
    ∃ d : Builder ℚ, exBuilderE be ct [[0, 0, 0], [1, 1, 1]] ["z", "a", "b"]
      (fun A => (A.addConstraint ["a", "b"] 0 1 none).map (·.1)) [0, 1, 1] (-1) = .ok d ∧
    (d.setX exExt [0, 0, 0]).2 = .error .index := by
  cases be <;> cases ct <;> decide +kernel

/-- Non-vacuity of C77: columns `a, b` and `b, a` of the same data, with recourse for the point `a = 0, b = 1`. -/
theorem C77_example (be : Backend) (ct : CostType) : ∃ (A A' : ActionSet ℚ) (b d b1 d1 : Builder ℚ),
    A.Reachable exExt ∧ A'.Reachable exExt ∧ A'.yDesired = A.yDesired ∧ A.cons.items = [] ∧ A'.cons.items = [] ∧
    (A'.elems.zip ([(-2 : ℚ), 1].zip [(1 : ℚ), 0])).Perm (A.elems.zip ([1, -2].zip [0, 1])) ∧
    mkBuilder be ct A [1, -2] (-1) = .ok b ∧ mkBuilder be ct A' [-2, 1] (-1) = .ok d ∧
    b.setX exExt [0, 1] = (b1, .ok ()) ∧ d.setX exExt [1, 0] = (d1, .ok ()) ∧
    ∀ o : Oracle ℚ, o.Exact → ∃ b' i d' i', b1.fit o = .ok (b', i) ∧ d1.fit o = .ok (d', i') ∧ i.feasible = true ∧
      i'.feasible = true := by
  have key : ∀ be ct, ∃ A : ActionSet ℚ,
      mkActionSet [[0, 0], [1, 2], [3, 1]] ["a", "b"] 1 [] defaultBounds (.str "relative") = .ok A ∧
      ∃ A' : ActionSet ℚ,
      mkActionSet [[0, 0], [2, 1], [1, 3]] ["b", "a"] 1 [] defaultBounds (.str "relative") = .ok A' ∧
      (A'.yDesired = A.yDesired ∧ A.cons.items = [] ∧ A'.cons.items = []) ∧
      ∃ b : Builder ℚ, mkBuilder be ct A [1, -2] (-1) = .ok b ∧
      ∃ d : Builder ℚ, mkBuilder be ct A' [-2, 1] (-1) = .ok d ∧
        ((b.setX exExt [0, 1]).2 = .ok () ∧
        admitted (b.buildArgs [0, 1] (b.setX exExt [0, 1]).1.feats) (fun _ => true) ≠ []) := by
    intro be ct; cases be <;> cases ct <;> decide +kernel
  obtain ⟨A, h1, A', h2, ⟨hy, hc, hc'⟩, b, h3, d, h4, h5, h6⟩ := key be ct
  have hp : (A'.elems.zip ([(-2 : ℚ), 1].zip [(1 : ℚ), 0])).Perm (A.elems.zip ([1, -2].zip [0, 1])) :=
    C77_new (w := [1, -2]) (w' := [-2, 1]) (x := [0, 1]) (x' := [1, 0]) exExt h1 h2 (by decide) (by decide +kernel) rfl rfl rfl rfl (by decide +kernel) (by decide +kernel)
  have hA : A.Reachable exExt := .mk h1
  have hA' : A'.Reachable exExt := .mk h2
  obtain ⟨b1, hx⟩ : ∃ b1, b.setX exExt [0, 1] = (b1, .ok ()) := ⟨_, Prod.ext rfl h5⟩
  obtain ⟨d1, hx'⟩ : ∃ d1, d.setX exExt [1, 0] = (d1, .ok ()) :=
    ⟨_, Prod.ext rfl ((C77_accepts_partial hA hA' hy hc hc' hp h3 h4 rfl rfl).mpr h5)⟩
  refine ⟨A, A', b, d, b1, d1, hA, hA', hy, hc, hc', hp, h3, h4, hx, hx', fun o ho => ?_⟩
  obtain ⟨b', i, hf, hi⟩ : ∃ b' i, b1.fit o = .ok (b', i) ∧ i.feasible = true := by
    obtain ⟨b1', feats, g1, -, g2, b', i, g3, g4⟩ := exSolve exExt_order (.mk hA h3) h5 ho
    rw [g1] at hx
    obtain ⟨rfl, -⟩ := Prod.mk.inj hx
    refine ⟨b', i, g3, ?_⟩
    rcases g4 with ⟨h, -⟩ | ⟨κ, -, -, hf, -⟩
    · rw [g2] at h6; exact absurd h h6
    · exact hf
  obtain ⟨feats, g1, g2, g3⟩ := Posed.setX exExt_order (Builder.Reachable.mk hA' h4).ok hx'
  obtain ⟨m, hm, -⟩ := g3.mip
  have hf' : d1.fit o = .ok (d1.solve o, (d1.solve o).solutionInfo) := by unfold Builder.fit; rw [hm]
  refine ⟨b', i, _, _, hf, hf', hi, ?_⟩
  rw [(C77_order_partial exExt_order hA hA' hy hc hc' hp h3 h4 ho ho hx hx' .refl .refl hf hf').1, hi]

/-! ## C78: features that cannot be used -/

/-- **C78**, acceptance (partial: without subset limits).  See `C78_frozen_partial`. -/
theorem C78_accepts_partial (hA : A.Reachable ext) (hA' : A'.Reachable ext) (h : Reduced A A' w w' x x' t t' fr)
    (hb : mkBuilder be ct A w t = .ok b) (hd : mkBuilder be' ct A' w' t' = .ok d)
    (hx : x.length = w.length) (hx' : x'.length = w'.length) :
    (d.setX ext x').2 = .ok () ↔ (b.setX ext x).2 = .ok () := h.accepts hA hA' hb hd hx hx'

/-- **C78** (partial: without subset limits; with them it is false, `C78_limits_refuted`).  Features that are not
actionable, or whose coefficient is 0 (for sets not aligned otherwise before), can be left out when their part of the
score is moved to the intercept (`Reduced`): there is recourse for the full point iff there is for the reduced one, and
the objective (for total and local costs, the cost reported) is the same. -/
theorem C78_frozen_partial (hso : SetOrderOk ext) (hA : A.Reachable ext) (hA' : A'.Reachable ext)
    (h : Reduced A A' w w' x x' t t' fr)
    (hb : mkBuilder be ct A w t = .ok b) (hd : mkBuilder be' ct A' w' t' = .ok d)
    (ho : o.Exact) (ho' : o'.Exact) (hx : b.setX ext x = (b1, .ok ())) (hx' : d.setX ext x' = (d1, .ok ()))
    (hr : b1.Refitted o b2) (hr' : d1.Refitted o' d2)
    (hf : b2.fit o = .ok (b3, i)) (hf' : d2.fit o' = .ok (d3, i')) :
    i'.feasible = i.feasible ∧ i'.upperbound = i.upperbound ∧ (ct ≠ .max → i'.cost = i.cost) :=
  h.answers hso hA hA' hb hd ho ho' hx hx' hr hr' hf hf'

/-- With subset limits C78 is false: with at most one of `a` and `b` nonzero, the point is accepted without the column
`z` of coefficient 0, and raises `IndexError` with it. -/
theorem C78_limits_refuted (be : Backend) (ct : CostType) : ∃ b : Builder ℚ,
    exBuilderE be ct [[0, 0, 0], [1, 1, 1]] ["z", "a", "b"]
      (fun A => (A.addConstraint ["a", "b"] 0 1 none).map (·.1)) [0, 1, 1] (-1) = .ok b ∧
    (b.setX exExt [0, 0, 0]).2 = .error .index ∧
    ∃ d : Builder ℚ, exBuilderE be ct [[0, 0], [1, 1]] ["a", "b"]
      (fun A => (A.addConstraint ["a", "b"] 0 1 none).map (·.1)) [1, 1] (-1) = .ok d ∧
    (d.setX exExt [0, 0]).2 = .ok () := by
  cases be <;> cases ct <;> decide +kernel

/-- Non-vacuity of C78: the features `z` (made not actionable, value 2) and `a`, with recourse through `a`; and the
feature `a` alone. -/
theorem C78_example (be : Backend) (ct : CostType) : ∃ (A A' : ActionSet ℚ) (fr : List (Col ℚ)) (b d b1 d1 : Builder ℚ),
    A.Reachable exExt ∧ A'.Reachable exExt ∧ Reduced A A' [3, 1] [1] [2, 0] [0] (-7) (-1) fr ∧ fr ≠ [] ∧
    mkBuilder be ct A [3, 1] (-7) = .ok b ∧ mkBuilder be ct A' [1] (-1) = .ok d ∧
    b.setX exExt [2, 0] = (b1, .ok ()) ∧ d.setX exExt [0] = (d1, .ok ()) ∧
    ∀ o : Oracle ℚ, o.Exact → ∃ b' i d' i', b1.fit o = .ok (b', i) ∧ d1.fit o = .ok (d', i') ∧ i.feasible = true ∧
      i'.feasible = true := by
  have key : ∀ be ct, ∃ A : ActionSet ℚ,
      mkActionSet [[0, 0], [1, 2], [3, 1]] ["z", "a"] 1 [] defaultBounds (.str "relative") = .ok A ∧
      ∃ A' : ActionSet ℚ, mkActionSet [[0], [2], [1]] ["a"] 1 [] defaultBounds (.str "relative") = .ok A' ∧
      ((A.setElemAttr "z" "actionable" (.bool false)).1.elems.length = 2 ∧
       (A.setElemAttr "z" "actionable" (.bool false)).1.elems.head?.map (·.actionable) = some false ∧
       (A.setElemAttr "z" "actionable" (.bool false)).1.yDesired = A'.yDesired ∧
       (A.setElemAttr "z" "actionable" (.bool false)).1.cons.items = [] ∧ A'.cons.items = [] ∧
       (A.setElemAttr "z" "actionable" (.bool false)).1.alignmentKnown = A'.alignmentKnown) ∧
      ∃ b : Builder ℚ, mkBuilder be ct (A.setElemAttr "z" "actionable" (.bool false)).1 [3, 1] (-7) = .ok b ∧
      ∃ d : Builder ℚ, mkBuilder be ct A' [1] (-1) = .ok d ∧
        ((b.setX exExt [2, 0]).2 = .ok () ∧
        admitted (b.buildArgs [2, 0] (b.setX exExt [2, 0]).1.feats) (fun _ => true) ≠ []) := by
    intro be ct; cases be <;> cases ct <;> decide +kernel
  obtain ⟨A0, h1, A', h2, ⟨k1, k2, k3, k4, k5, k6⟩, b, h3, d, h4, h5, h6⟩ := key be ct
  have hA : (A0.setElemAttr "z" "actionable" (.bool false)).1.Reachable exExt := .setElem _ _ _ (.mk h1)
  have hA' : A'.Reachable exExt := .mk h2
  have hs : (A0.setElemAttr "z" "actionable" (.bool false)).1.elems[1]? = A0.elems[1]? := by
    unfold ActionSet.setElemAttr
    cases A0.elem? "z" with
    | none => rfl
    | some e =>
      dsimp only
      cases e.setAttr "actionable" (.bool false) with
      | error er => rfl
      | ok e' =>
        dsimp only
        rw [(mkActionSet_spec h1).2.2.2.2.2.1, List.getElem?_set_ne (by decide)]
  have h12 : A0.elems[1]? = A'.elems[0]? := by
    obtain ⟨v, g1, g2⟩ := (mapM_getElem (mkActionSet_spec h1).2.2.2.1 (j := 1)).1 ("a", 1) rfl
    obtain ⟨v', g1', g2'⟩ := (mapM_getElem (mkActionSet_spec h2).2.2.2.1 (j := 0)).1 ("a", 0) rfl
    rw [g1, g1']
    have e : mkColumn [[0], [2], [1]] [] defaultBounds (.str "relative") 0 "a" =
        mkColumn [[0, 0], [1, 2], [3, (1 : ℚ)]] [] defaultBounds (.str "relative") 1 "a" := rfl
    dsimp only at g2 g2'
    rw [e, g2] at g2'
    exact congrArg some (Except.ok.inj g2')
  have hl' : A'.elems.length = 1 := by rw [hA'.wf.length, (mkActionSet_spec h2).2.2.2.2.2.1]; rfl
  rw [← hs] at h12
  clear hs h1
  generalize (A0.setElemAttr "z" "actionable" (.bool false)).1 = A at *
  obtain ⟨e, he⟩ : ∃ e, A.elems = e :: A'.elems := by
    obtain ⟨e, e', hE⟩ := List.length_eq_two.mp k1
    obtain ⟨e'', hE'⟩ := List.length_eq_one_iff.mp hl'
    rw [hE, hE'] at h12
    obtain rfl := Option.some.inj h12
    exact ⟨e, by rw [hE, hE']⟩
  have hea : e.actionable = false := by rw [he] at k2; exact Option.some.inj k2
  have hred : Reduced A A' [3, 1] [1] [2, 0] [0] (-7) (-1) [(e, 3, 2)] := by
    refine ⟨k3.symm, k4, k5, ?_, ?_, k6.symm, by norm_num⟩
    · rw [he]
      simp
    · intro a ha
      rw [List.mem_singleton] at ha
      subst ha
      exact .inl hea
  obtain ⟨b1, hx⟩ : ∃ b1, b.setX exExt [2, 0] = (b1, .ok ()) := ⟨_, Prod.ext rfl h5⟩
  obtain ⟨d1, hx'⟩ : ∃ d1, d.setX exExt [0] = (d1, .ok ()) :=
    ⟨_, Prod.ext rfl ((C78_accepts_partial hA hA' hred h3 h4 rfl rfl).mpr h5)⟩
  refine ⟨A, A', _, b, d, b1, d1, hA, hA', hred, by simp, h3, h4, hx, hx', fun o ho => ?_⟩
  obtain ⟨b', i, hf, hi⟩ : ∃ b' i, b1.fit o = .ok (b', i) ∧ i.feasible = true := by
    obtain ⟨b1', feats, g1, -, g2, b', i, g3, g4⟩ := exSolve exExt_order (.mk hA h3) h5 ho
    rw [g1] at hx
    obtain ⟨rfl, -⟩ := Prod.mk.inj hx
    refine ⟨b', i, g3, ?_⟩
    rcases g4 with ⟨h, -⟩ | ⟨κ, -, -, hf, -⟩
    · rw [g2] at h6; exact absurd h h6
    · exact hf
  obtain ⟨feats, g1, g2, g3⟩ := Posed.setX exExt_order (Builder.Reachable.mk hA' h4).ok hx'
  obtain ⟨m, hm, -⟩ := g3.mip
  have hf' : d1.fit o = .ok (d1.solve o, (d1.solve o).solutionInfo) := by unfold Builder.fit; rw [hm]
  refine ⟨b', i, _, _, hf, hf', hi, ?_⟩
  rw [(C78_frozen_partial exExt_order hA hA' hred h3 h4 ho ho hx hx' .refl .refl hf hf').1, hi]

end Recourse
