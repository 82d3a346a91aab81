import Mathlib.Data.List.ReduceOption
import Verif.Props.Compare

/-!
# Builders column by column

Without subset limits, the program of a builder is determined by the multiset of its columns (feature, coefficient,
value).
-/

set_option linter.unusedSectionVars false

namespace Recourse

variable {K : Type} [Field K] [LinearOrder K] [IsStrictOrderedRing K] [FloorRing K]

variable {ext : Ext K}

/-! ## Lists -/

theorem mapM_perm {α β ε : Type} {F : α → Except ε β} {l l' : List α} (h : l.Perm l') : ∀ {r : List β},
    l.mapM F = .ok r → ∃ r', l'.mapM F = .ok r' ∧ r.Perm r' := by
  induction h with
  | nil => intro r hr; exact ⟨r, hr, .refl _⟩
  | cons a _ ih =>
    intro r hr
    obtain ⟨u, r1, h1, h2, rfl⟩ := mapM_ok_cons.mp hr
    obtain ⟨r2, h3, h4⟩ := ih h2
    exact ⟨u :: r2, mapM_ok_cons.mpr ⟨u, r2, h1, h3, rfl⟩, h4.cons _⟩
  | swap a b l =>
    intro r hr
    obtain ⟨u, r1, h1, h2, rfl⟩ := mapM_ok_cons.mp hr
    obtain ⟨v, r2, h3, h4, rfl⟩ := mapM_ok_cons.mp h2
    exact ⟨v :: u :: r2, mapM_ok_cons.mpr ⟨v, u :: r2, h3, mapM_ok_cons.mpr ⟨u, r2, h1, h4, rfl⟩, rfl⟩,
      List.Perm.swap ..⟩
  | trans _ _ ih1 ih2 =>
    intro r hr
    obtain ⟨r1, h1, h2⟩ := ih1 hr
    obtain ⟨r2, h3, h4⟩ := ih2 h1
    exact ⟨r2, h3, h2.trans h4⟩

theorem mapM_append_ok {α β ε : Type} {F : α → Except ε β} {l l' : List α} {r : List β} :
    (l ++ l').mapM F = .ok r ↔ ∃ r1 r2, l.mapM F = .ok r1 ∧ l'.mapM F = .ok r2 ∧ r = r1 ++ r2 := by
  induction l generalizing r with
  | nil =>
    constructor
    · intro h; exact ⟨[], r, rfl, h, rfl⟩
    · rintro ⟨r1, r2, h1, h2, rfl⟩; cases h1; exact h2
  | cons a l ih =>
    rw [List.cons_append, mapM_ok_cons]
    constructor
    · rintro ⟨u, s, h1, h2, rfl⟩
      obtain ⟨r1, r2, h3, h4, rfl⟩ := ih.mp h2
      exact ⟨u :: r1, r2, mapM_ok_cons.mpr ⟨u, r1, h1, h3, rfl⟩, h4, rfl⟩
    · rintro ⟨r1, r2, h1, h2, rfl⟩
      obtain ⟨u, s, h3, h4, rfl⟩ := mapM_ok_cons.mp h1
      exact ⟨u, s ++ r2, h3, ih.mpr ⟨s, r2, h4, h2, rfl⟩, rfl⟩

theorem mapM_congr_ok {α β ε : Type} {F G : α → Except ε β} {l : List α} (h : ∀ a ∈ l, F a = G a) :
    l.mapM F = l.mapM G := by
  induction l with
  | nil => rfl
  | cons a l ih =>
    rw [List.mapM_cons, List.mapM_cons, h a (List.mem_cons_self ..),
      ih fun b hb => h b (List.mem_cons_of_mem _ hb)]

theorem mapM_mapE {α β γ ε : Type} (F : α → Except ε β) (G : β → γ) : ∀ l : List α,
    l.mapM (fun a => (F a).map G) = (l.mapM F).map (List.map G)
  | [] => rfl
  | a :: l => by
    rw [List.mapM_cons, List.mapM_cons, mapM_mapE F G l]
    cases F a with
    | error e => rfl
    | ok v => cases l.mapM F <;> rfl

/-- The stages of `_get_mip_build_info`, one column at a time. -/
def stage {α β γ : Type} (c : α → Bool) (G : α → Except Err β) (s : β → Bool) (M : β → Except Err γ) (C : γ → Bool)
    (a : α) : Except Err (Option γ) :=
  if c a = true then
    match G a with
    | .error e => .error e
    | .ok g =>
      if s g = true then
        match M g with
        | .error e => .error e
        | .ok f => if C f = true then .ok (some f) else .error .assertion
      else .ok none
  else .ok none

theorem stages_iff {α β γ : Type} {c : α → Bool} {G : α → Except Err β} {s : β → Bool} {M : β → Except Err γ}
    {C : γ → Bool} {l : List α} {fs : List γ} :
    (∃ grid, (l.filter c).mapM G = .ok grid ∧ (grid.filter s).mapM M = .ok fs ∧ fs.all C = true) ↔
      ∃ r, l.mapM (stage c G s M C) = .ok r ∧ fs = r.reduceOption := by
  induction l generalizing fs with
  | nil =>
    constructor
    · rintro ⟨grid, h1, h2, -⟩
      cases h1; cases h2
      exact ⟨[], rfl, rfl⟩
    · rintro ⟨r, h1, rfl⟩
      cases h1
      exact ⟨[], rfl, rfl, rfl⟩
  | cons a l ih =>
    by_cases hc : c a = true
    · rw [List.filter_cons_of_pos hc]
      constructor
      · rintro ⟨grid, h1, h2, h3⟩
        obtain ⟨g, grid', h4, h5, rfl⟩ := mapM_ok_cons.mp h1
        by_cases hs : s g = true
        · rw [List.filter_cons_of_pos hs] at h2
          obtain ⟨f, fs', h6, h7, rfl⟩ := mapM_ok_cons.mp h2
          rw [List.all_cons, Bool.and_eq_true] at h3
          obtain ⟨r, h8, rfl⟩ := ih.mp ⟨grid', h5, h7, h3.2⟩
          refine ⟨some f :: r, mapM_ok_cons.mpr ⟨some f, r, ?_, h8, rfl⟩, (List.reduceOption_cons_of_some _ _).symm⟩
          unfold stage
          rw [if_pos hc, h4]; dsimp only
          rw [if_pos hs, h6]; dsimp only
          rw [if_pos h3.1]
        · rw [List.filter_cons_of_neg hs] at h2
          obtain ⟨r, h8, rfl⟩ := ih.mp ⟨grid', h5, h2, h3⟩
          refine ⟨none :: r, mapM_ok_cons.mpr ⟨none, r, ?_, h8, rfl⟩, (List.reduceOption_cons_of_none _).symm⟩
          unfold stage
          rw [if_pos hc, h4]; dsimp only
          rw [if_neg hs]
      · rintro ⟨r, h1, rfl⟩
        obtain ⟨v, r', h2, h3, rfl⟩ := mapM_ok_cons.mp h1
        obtain ⟨grid', h4, h5, h6⟩ := ih.mpr ⟨r', h3, rfl⟩
        unfold stage at h2
        rw [if_pos hc] at h2
        cases hg : G a with
        | error e => rw [hg] at h2; cases h2
        | ok g =>
          rw [hg] at h2; dsimp only at h2
          refine ⟨g :: grid', mapM_ok_cons.mpr ⟨g, grid', hg, h4, rfl⟩, ?_⟩
          by_cases hs : s g = true
          · rw [if_pos hs] at h2
            rw [List.filter_cons_of_pos hs]
            cases hm : M g with
            | error e => rw [hm] at h2; cases h2
            | ok f =>
              rw [hm] at h2; dsimp only at h2
              by_cases hC : C f = true
              · rw [if_pos hC] at h2
                cases h2
                rw [List.reduceOption_cons_of_some]
                refine ⟨mapM_ok_cons.mpr ⟨f, _, hm, h5, rfl⟩, ?_⟩
                rw [List.all_cons, hC, h6]; rfl
              · rw [if_neg hC] at h2; cases h2
          · rw [if_neg hs] at h2
            cases h2
            rw [List.filter_cons_of_neg hs, List.reduceOption_cons_of_none]
            exact ⟨h5, h6⟩
    · rw [List.filter_cons_of_neg hc, ih]
      have hn : stage c G s M C a = .ok none := by unfold stage; rw [if_neg hc]
      constructor
      · rintro ⟨r, h1, rfl⟩
        exact ⟨none :: r, mapM_ok_cons.mpr ⟨none, r, hn, h1, rfl⟩, (List.reduceOption_cons_of_none _).symm⟩
      · rintro ⟨r, h1, rfl⟩
        obtain ⟨v, r', h2, h3, rfl⟩ := mapM_ok_cons.mp h1
        rw [hn] at h2; cases h2
        exact ⟨r', h3, List.reduceOption_cons_of_none _⟩

/-! ## Columns -/

/-- A column of a builder: feature, coefficient, value. -/
abbrev Col (K : Type) := Elem K × K × K

/-- The usable feature of a column, if any, with position 0 (recourse/builder.py:354-422). -/
def colFeat (ext : Ext K) (ct : CostType) (y : Int) (a : Col K) : Except Err (Option (Feat K)) :=
  stage (fun a : Col K => a.1.compatTruthy) (fun a => gridEntry ext a.1.name a.1 a.2.2 true true)
    (fun g => decide (2 ≤ g.acts.length))
    (fun g => match dropBugs ((orient ext ct g.acts g.pcts).1.zip (orient ext ct g.acts g.pcts).2) with
      | none => .error .index
      | some ac => if (npDiff (ac.map (·.2))).isEmpty then .error .value else
          .ok { name := g.name, idx := 0, coef := a.2.1, actions := ac.map (·.1), costs := ac.map (·.2), kNull := 0 })
    (checkFeat y []) a

/-- The position of a feature among the given names. -/
def Feat.place (ns : List String) (f : Feat K) : Feat K := { f with idx := ns.idxOf f.name }

theorem checkFeat_place (y : Int) (cn ns : List String) (f : Feat K) : checkFeat y cn (f.place ns) = checkFeat y cn f := rfl

theorem cols_eq {es : List (Elem K)} {w x : List K} (hw : w.length = es.length) (hx : x.length = es.length) :
    (es.map (·.name)).zip (es.zip x) = (es.zip (w.zip x)).map fun a => (a.1.name, a.1, a.2.2) := by
  induction es generalizing w x with
  | nil => rfl
  | cons e es ih =>
    cases w with
    | nil => cases hw
    | cons v w =>
      cases x with
      | nil => cases hx
      | cons u x =>
        simp only [List.map_cons, List.zip_cons_cons]
        rw [ih (w := w) (Nat.succ.inj hw) (Nat.succ.inj hx)]

theorem mem_cols {es : List (Elem K)} {w x : List K} {a : Col K} (hd : (es.map (·.name)).Nodup)
    (h : a ∈ es.zip (w.zip x)) : a.1.name ∈ es.map (·.name) ∧ w[(es.map (·.name)).idxOf a.1.name]? = some a.2.1 ∧
      x[(es.map (·.name)).idxOf a.1.name]? = some a.2.2 := by
  obtain ⟨j, hj⟩ := List.mem_iff_getElem?.mp h
  rw [List.getElem?_zip_eq_some, List.getElem?_zip_eq_some] at hj
  obtain ⟨h1, h2, h3⟩ := hj
  have hn : (es.map (·.name))[j]? = some a.1.name := by rw [List.getElem?_map, h1]; rfl
  have hi : (es.map (·.name)).idxOf a.1.name = j := by
    obtain ⟨hlt, he⟩ := List.getElem?_eq_some_iff.mp hn
    rw [← he]
    exact hd.idxOf_getElem j hlt
  exact ⟨List.mem_of_getElem? hn, by rw [hi]; exact h2, by rw [hi]; exact h3⟩

/-- The build information of a builder without subset limits, column by column. -/
theorem buildInfo_cols {b : Builder K} {x : List K} (hb : BuilderOK ext b) (hc : b.aset.cons.items = [])
    (hx : x.length = b.coefs.length) (feats : List (Feat K)) :
    b.buildInfo ext x = .ok feats ↔
      ∃ r, (b.aset.elems.zip (b.coefs.zip x)).mapM (colFeat ext b.costType b.aset.yDesired) = .ok r ∧
        feats = (r.reduceOption).map (Feat.place b.varNames) := by
  have hcn : b.aset.cons.flatNames = [] := by unfold Constraints.flatNames; rw [hc]; rfl
  have hwn := hb.aset.wf.names
  have hlen := hb.aset.wf.length
  have hwl : b.coefs.length = b.aset.elems.length := by rw [hlen]; exact hb.coefs
  have hxl : x.length = b.aset.elems.length := by rw [hx, hwl]
  have e1 : b.aset.feasibleGrid ext x true true =
      (((b.aset.elems.zip (b.coefs.zip x)).filter fun a => a.1.compatTruthy).mapM
        fun a => gridEntry ext a.1.name a.1 a.2.2 true true) := by
    unfold ActionSet.feasibleGrid
    have h1 : pyAssert (decide (x.length = b.aset.names.length)) = .ok () := by
      rw [pyAssert_ok_iff, decide_eq_true_eq, hxl, hlen]
    rw [h1]
    simp only [ok_bind, Bool.not_true, Bool.false_or]
    have h2 : ¬ 0 < b.aset.cons.items.length := by rw [hc]; simp
    simp only [if_neg h2]
    unfold ActionSet.cols
    rw [← hwn, cols_eq hwl hxl, List.filter_map, List.mapM_map]
    have h3 : ∀ m : Except Err (List (GridEntry K)), (m >>= fun out => Except.ok out) = m := by
      intro m; cases m <;> rfl
    rw [h3]
    rfl
  have e2 : b.buildInfo ext x = .ok feats ↔
      ∃ grid, (((b.aset.elems.zip (b.coefs.zip x)).filter fun a => a.1.compatTruthy).mapM
        fun a => gridEntry ext a.1.name a.1 a.2.2 true true) = .ok grid ∧
        (grid.filter fun g => decide (2 ≤ g.acts.length)).mapM (mkFeat ext b x []) = .ok feats ∧
        feats.all (checkFeat b.aset.yDesired []) = true := by
    unfold Builder.buildInfo
    simp only [bind_ok_iff, pyAssert_ok_iff]
    rw [e1, hcn]
    constructor
    · rintro ⟨grid, h1, fs, h2, -, h3, h4⟩
      cases h4
      exact ⟨grid, h1, h2, h3⟩
    · rintro ⟨grid, h1, h2, h3⟩
      exact ⟨grid, h1, feats, h2, (), h3, rfl⟩
  rw [e2, stages_iff]
  have key : ∀ a ∈ b.aset.elems.zip (b.coefs.zip x),
      stage (fun a : Col K => a.1.compatTruthy) (fun a => gridEntry ext a.1.name a.1 a.2.2 true true)
        (fun g => decide (2 ≤ g.acts.length)) (mkFeat ext b x []) (checkFeat b.aset.yDesired []) a =
      (colFeat ext b.costType b.aset.yDesired a).map (Option.map (Feat.place b.varNames)) := by
    intro a ha
    obtain ⟨m1, m2, m3⟩ := mem_cols (by rw [hwn]; exact hb.aset.wf.distinct) ha
    unfold colFeat stage
    dsimp only
    by_cases hcp : a.1.compatTruthy = true
    · rw [if_pos hcp, if_pos hcp]
      cases hg : gridEntry ext a.1.name a.1 a.2.2 true true with
      | error e => rfl
      | ok g =>
        dsimp only
        have hgn : g.name = a.1.name := by
          unfold gridEntry at hg
          simp only [bind_ok_iff] at hg
          obtain ⟨_, -, _, -, hg⟩ := hg
          cases hg; rfl
        by_cases hs : decide (2 ≤ g.acts.length) = true
        · rw [if_pos hs, if_pos hs]
          have hmk : mkFeat ext b x [] g =
              (match dropBugs ((orient ext b.costType g.acts g.pcts).1.zip (orient ext b.costType g.acts g.pcts).2) with
              | none => .error .index
              | some ac => if (npDiff (ac.map (·.2))).isEmpty then .error .value else
                  (.ok { name := g.name, idx := b.varNames.idxOf g.name, coef := a.2.1, actions := ac.map (·.1),
                         costs := ac.map (·.2), kNull := 0 } : Except Err (Feat K))) := by
            unfold mkFeat
            cases orient ext b.costType g.acts g.pcts with
            | mk u c =>
              dsimp only
              cases dropBugs (u.zip c) with
              | none => rfl
              | some ac =>
                dsimp only
                rw [hb.names, hgn, ← hwn, if_neg (not_not.mpr m1), m2]
                dsimp only
                rw [m3]
                dsimp only
                rw [if_neg (by simp)]
                rfl
          rw [hmk]
          cases dropBugs ((orient ext b.costType g.acts g.pcts).1.zip (orient ext b.costType g.acts g.pcts).2) with
          | none => rfl
          | some ac =>
            dsimp only
            by_cases hd : (npDiff (ac.map (·.2))).isEmpty = true
            · rw [if_pos hd, if_pos hd]; rfl
            · rw [if_neg hd, if_neg hd]
              dsimp only
              set f : Feat K := { name := g.name, idx := 0, coef := a.2.1, actions := ac.map (·.1),
                                  costs := ac.map (·.2), kNull := 0 } with hf
              have hp : ({ name := g.name, idx := b.varNames.idxOf g.name, coef := a.2.1, actions := ac.map (·.1),
                           costs := ac.map (·.2), kNull := 0 } : Feat K) = f.place b.varNames := rfl
              rw [hp, checkFeat_place]
              by_cases hC : checkFeat b.aset.yDesired [] f = true
              · rw [if_pos hC, if_pos hC]; rfl
              · rw [if_neg hC, if_neg hC]; rfl
        · rw [if_neg hs, if_neg hs]; rfl
    · rw [if_neg hcp, if_neg hcp]; rfl
  rw [mapM_congr_ok key, mapM_mapE]
  have hro : ∀ r : List (Option (Feat K)), (r.map (Option.map (Feat.place b.varNames))).reduceOption =
      (r.reduceOption).map (Feat.place b.varNames) := fun r => List.reduceOption_map
  constructor
  · rintro ⟨r, h1, rfl⟩
    cases hm : (b.aset.elems.zip (b.coefs.zip x)).mapM (colFeat ext b.costType b.aset.yDesired) with
    | error e => rw [hm] at h1; cases h1
    | ok r' =>
      rw [hm] at h1; cases h1
      exact ⟨r', rfl, hro r'⟩
  · rintro ⟨r, h1, rfl⟩
    rw [h1]
    exact ⟨_, rfl, (hro r).symm⟩

/-! ## Programs with the same features at other positions -/

theorem foldl_max_perm {l l' : List K} (h : l.Perm l') (c : K) : l.foldl max c = l'.foldl max c :=
  h.foldl_eq' (fun _ _ _ _ _ => by rw [max_right_comm]) c

theorem npMin_perm {l l' : List K} (h : l.Perm l') : npMin l = npMin l' := by
  by_cases he : l = []
  · subst he; rw [h.nil_eq]
  · have he' : l' ≠ [] := fun hn => he (by subst hn; exact h.eq_nil)
    exact le_antisymm (npMin_le (h.mem_iff.mpr (npMin_mem he'))) (npMin_le (h.mem_iff.mp (npMin_mem he)))

/-- The second list has the features of the first at other positions. -/
structure Moved (ns ns' : List String) (feats feats' : List (Feat K)) : Prop where
  perm : feats'.Perm (feats.map (Feat.place ns'))
  mem : ∀ f ∈ feats, f.name ∈ ns'
  idx : ∀ f ∈ feats, f.idx = ns.idxOf f.name

/-- The choice for the moved features. -/
def moveChoice (ns ns' : List String) (κ : ℕ → ℕ) : ℕ → ℕ := fun j => κ (ns.idxOf (ns'.getD j ""))

section
variable {ns ns' : List String} {feats feats' : List (Feat K)} (h : Moved ns ns' feats feats') (κ : ℕ → ℕ)
include h

theorem Moved.choice_at {f : Feat K} (hf : f ∈ feats) : moveChoice ns ns' κ (f.place ns').idx = κ f.idx := by
  have hlt : ns'.idxOf f.name < ns'.length := List.idxOf_lt_length_iff.mpr (h.mem f hf)
  unfold moveChoice Feat.place
  dsimp only
  rw [List.getD_eq_getElem _ _ hlt, List.getElem_idxOf, h.idx f hf]

theorem Moved.act {f : Feat K} (hf : f ∈ feats) : (f.place ns').act (moveChoice ns ns' κ) = f.act κ := by
  unfold Feat.act; rw [h.choice_at κ hf]; rfl

theorem Moved.cst {f : Feat K} (hf : f ∈ feats) : (f.place ns').cst (moveChoice ns ns' κ) = f.cst κ := by
  unfold Feat.cst; rw [h.choice_at κ hf]; rfl

theorem Moved.map_perm {β : Type} (F G : Feat K → β) (hFG : ∀ f ∈ feats, F (f.place ns') = G f) :
    (feats'.map F).Perm (feats.map G) := by
  refine (h.perm.map F).trans ?_
  rw [List.map_map, List.map_congr_left (f := F ∘ Feat.place ns') (g := G) fun f hf => hFG f hf]

theorem Moved.choice (hκ : Choice feats κ) : Choice feats' (moveChoice ns ns' κ) := by
  intro f' hf'
  obtain ⟨f, hf, rfl⟩ := List.mem_map.mp (h.perm.mem_iff.mp hf')
  rw [h.choice_at κ hf]
  exact hκ f hf

theorem Moved.gain : choiceGain feats' (moveChoice ns ns' κ) = choiceGain feats κ :=
  (h.map_perm _ _ fun f hf => by rw [h.act κ hf]; rfl).sum_eq

theorem Moved.size : choiceSize feats' (moveChoice ns ns' κ) = choiceSize feats κ := by
  unfold choiceSize
  rw [h.perm.countP_eq, List.countP_map]
  refine List.countP_congr fun f hf => ?_
  simp only [Function.comp_apply, h.choice_at κ hf]

theorem Moved.sum : choiceSum feats' (moveChoice ns ns' κ) = choiceSum feats κ :=
  (h.map_perm _ _ fun f hf => h.cst κ hf).sum_eq

theorem Moved.isEmpty : feats'.isEmpty = feats.isEmpty := by
  have := h.perm.length_eq
  rw [List.length_map] at this
  rw [Bool.eq_iff_iff, List.isEmpty_iff, List.isEmpty_iff, ← List.length_eq_zero_iff, ← List.length_eq_zero_iff, this]

theorem Moved.obj (ct : CostType) : choiceObj ct feats' (moveChoice ns ns' κ) = choiceObj ct feats κ := by
  have hm : choiceMax feats' (moveChoice ns ns' κ) = choiceMax feats κ :=
    foldl_max_perm (h.map_perm _ _ fun f hf => h.cst κ hf) 0
  have he : epsilon feats' = epsilon feats := by
    unfold epsilon
    rw [h.isEmpty, npMin_perm (h.map_perm (fun f => npMin (npDiff f.costs)) (fun f => npMin (npDiff f.costs))
      fun f _ => rfl), (h.map_perm (fun f => npMax f.costs) (fun f => npMax f.costs) fun f _ => rfl).sum_eq]
  unfold choiceObj
  rw [hm, he, h.sum]

theorem Moved.ok {p p' : BuildArgs K} (hp : p.feats = feats) (hp' : p'.feats = feats') (hlim : p'.limits = [])
    (hlo : p'.minItems = p.minItems) (hhi : feats'.length ≤ p'.maxItems) (hs : p'.score = p.score)
    (hy : p'.yDesired = p.yDesired) (hκ : ChoiceOK p κ) : ChoiceOK p' (moveChoice ns ns' κ) where
  lt := by rw [hp']; exact h.choice κ (hp ▸ hκ.lt)
  score := by rw [hp', h.gain, hs, hy, ← hp]; exact hκ.score
  lo := by rw [hp', h.size, hlo, ← hp]; exact hκ.lo
  hi := by rw [hp']; exact le_trans (List.countP_le_length) hhi
  limits := by rw [hlim]; intro c hc; cases hc

end

end Recourse
