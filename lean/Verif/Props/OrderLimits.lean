import Verif.Props.Order
import Verif.Props.Slots
import Verif.Props.Ends

/-!
# The order of the columns and frozen features, with subset limits (C77, C78)
-/

set_option linter.unusedSectionVars false

namespace Recourse

variable {K : Type} [Field K] [LinearOrder K] [IsStrictOrderedRing K] [FloorRing K]

variable {ext : Ext K} {A A' : ActionSet K} {w w' x x' : List K} {t t' : K} {be be' : Backend} {ct : CostType}
  {o o' : Oracle K} {b b1 b2 b3 d d1 d2 d3 : Builder K} {i i' : Info K} {fr : List (Col K)}

/-- The two sets have the same subset limits: the same bounds on the same features (a limit stores its features in the order of
the columns, constraints.py, so the lists of names can differ in their order). -/
def SameLimits (A A' : ActionSet K) : Prop :=
  (∀ k ∈ A.cons.items, ∃ k' ∈ A'.cons.items, k'.names.Perm k.names ∧ k'.lb = k.lb ∧ k'.ub = k.ub) ∧
  ∀ k' ∈ A'.cons.items, ∃ k ∈ A.cons.items, k.names.Perm k'.names ∧ k.lb = k'.lb ∧ k.ub = k'.ub

theorem SameLimits.symm (h : SameLimits A A') : SameLimits A' A := ⟨h.2, h.1⟩

theorem SameLimits.listed (h : SameLimits A A') (n : String) : Listed A n ↔ Listed A' n := by
  constructor
  · rintro ⟨k, hk, hn⟩
    obtain ⟨k', hk', e, -⟩ := h.1 k hk
    exact ⟨k', hk', e.mem_iff.mpr hn⟩
  · rintro ⟨k, hk, hn⟩
    obtain ⟨k', hk', e, -⟩ := h.2 k hk
    exact ⟨k', hk', e.mem_iff.mpr hn⟩

/-- The classifier, set and point `A, w, t, x` have the columns (feature, coefficient, value) of `A', w', t', x'` in any order and the
columns `fr`, whose features are not actionable or (in sets that are not aligned yet) have coefficient 0 and whose part of the
score is in the intercept `t'`; and the sets have the same subset limits. -/
structure Leaves (A A' : ActionSet K) (w w' x x' : List K) (t t' : K) (fr : List (Col K)) : Prop where
  y : A'.yDesired = A.yDesired
  limits : SameLimits A A'
  cols : (A.elems.zip (w.zip x)).Perm (fr ++ A'.elems.zip (w'.zip x'))
  frozen : ∀ a ∈ fr, FrozenCol A.alignmentKnown a
  known : A'.alignmentKnown = A.alignmentKnown
  shift : t' = t + (fr.map fun a => a.2.1 * a.2.2).sum

theorem frozen_compatible {y : Int} {known : Bool} {a : Col K} (h : FrozenCol known a)
    (ha : known = true → a.1.aligned = true) : (alignCol known y a).1.compatible = some false := by
  unfold alignCol Elem.compatible
  cases known with
  | true =>
    have ha := ha rfl
    rcases h with h | ⟨-, h⟩
    · unfold Elem.aligned at ha
      simp only [if_true]
      cases hf : a.1.flip with
      | none => rw [hf] at ha; cases ha
      | some f => dsimp only; rw [h]; rfl
    · cases h
  | false =>
    simp only [Bool.false_eq_true, if_false, Elem.setFlip]
    rcases h with h | ⟨h, -⟩
    · rw [h]; rfl
    · rw [h]; simp

/-- A usable feature is determined by its column. -/
theorem FeatSpec.unique {f f' : Feat K} {e : Elem K} {xj : K} {T T' : List K} {τ τ' : Table K}
    (h : FeatSpec ext b x f e xj τ T) (h' : FeatSpec ext d x' f' e xj τ' T') (hn : f'.name = f.name)
    (hw : f'.coef = f.coef) (hct : d.costType = b.costType)
    (hl : f.name ∈ d.aset.cons.flatNames ↔ f.name ∈ b.aset.cons.flatNames) (hnd : f.actions.Nodup)
    (hk : f.kNull < f.actions.length) (hk' : f'.kNull < f'.actions.length) :
    f'.actions = f.actions ∧ f'.costs = f.costs ∧ f'.kNull = f.kNull := by
  have ht : τ' = τ := by have := h'.table; rw [h.table] at this; exact (Except.ok.inj this).symm
  subst ht
  have hdec : decide (f'.name ∉ d.aset.cons.flatNames) = decide (f.name ∉ b.aset.cons.flatNames) := by
    rw [decide_eq_decide, hn, hl]
  have hT : T' = T := by
    have h1 := h'.order
    rw [hdec, h.order] at h1
    exact ((List.cons.inj h1).2).symm
  subst hT
  have ha : f'.actions = f.actions := by rw [h'.actions, h.actions, hdec, hct]
  refine ⟨ha, by rw [h'.costs, h.costs, hdec, hct], ?_⟩
  by_cases hc : f.name ∈ b.aset.cons.flatNames ∧ 0 < xj
  · have h1 := h.null.1 hc
    have h2 := h'.null.1 ⟨by rw [hn, hl]; exact hc.1, hc.2⟩
    rw [ha] at h2 hk'
    rw [List.getElem?_eq_getElem hk] at h1
    rw [List.getElem?_eq_getElem hk'] at h2
    exact hnd.getElem_inj_iff.mp ((Option.some.inj h2).trans (Option.some.inj h1).symm)
  · rw [h.null.2 hc, h'.null.2 (by rw [hn, hl]; exact hc)]

/-- Columns of the builders. -/
theorem col_mem {es : List (Elem K)} {w x : List K} {a : Col K} :
    a ∈ es.zip (w.zip x) ↔ ∃ j : ℕ, es[j]? = some a.1 ∧ w[j]? = some a.2.1 ∧ x[j]? = some a.2.2 := by
  rw [List.mem_iff_getElem?]
  refine exists_congr fun j => ?_
  rw [List.getElem?_zip_eq_some, List.getElem?_zip_eq_some]

/-- One half: the features of the one builder whose columns the other has are features of the other. -/
theorem feats_sub (hso : SetOrderOk ext) (hb : BuilderOK ext b) (hd : BuilderOK ext d) {feats feats' : List (Feat K)}
    (h1 : b.buildInfo ext x = .ok feats) (h2 : d.buildInfo ext x' = .ok feats') (hct : d.costType = b.costType)
    (hl : ∀ n, Listed b.aset n ↔ Listed d.aset n)
    (hcol : ∀ (j : ℕ) (n : String) (e : Elem K) (w xj : K), b.aset.names[j]? = some n → b.aset.elems[j]? = some e →
      b.coefs[j]? = some w → x[j]? = some xj → (e.compatible ≠ some false ∨ Listed b.aset n) →
      (e, w, xj) ∈ d.aset.elems.zip (d.coefs.zip x')) :
    ∀ f ∈ feats, f.place d.varNames ∈ feats' ∧ f.name ∈ d.varNames := by
  intro f hf
  obtain ⟨-, -, hspec, -⟩ := buildInfo_spec hso hb h1
  obtain ⟨-, -, hspec', hall'⟩ := buildInfo_spec hso hd h2
  have ok := buildInfo_ok hso hb h1
  have ok' := buildInfo_ok hso hd h2
  obtain ⟨e, xj, τ, T, hs⟩ := hspec f hf
  have hus : e.compatible ≠ some false ∨ Listed b.aset f.name := hs.usable.imp id listed_iff.mp
  obtain ⟨j, j1, j2, j3⟩ := col_mem.mp (hcol f.idx f.name e f.coef xj hs.name hs.elem hs.coef hs.val hus)
  dsimp only at j1 j2 j3
  have hname : ∀ {b : Builder K} (hb : BuilderOK ext b) {j : ℕ} {e : Elem K}, b.aset.elems[j]? = some e →
      b.aset.names[j]? = some e.name := by
    intro b hb j e he
    rw [← hb.aset.wf.names, List.getElem?_map, he]; rfl
  have hen : e.name = f.name := by
    have := hname hb hs.elem
    rw [hs.name] at this
    exact (Option.some.inj this).symm
  have jn : d.aset.names[j]? = some f.name := by rw [hname hd j1, hen]
  have hlf : ∀ n, n ∈ d.aset.cons.flatNames ↔ n ∈ b.aset.cons.flatNames := fun n => by
    rw [listed_iff, listed_iff, hl]
  have hdec : decide (f.name ∉ d.aset.cons.flatNames) = decide (f.name ∉ b.aset.cons.flatNames) := by
    rw [decide_eq_decide, hlf]
  obtain ⟨f', hf', hfn, hfi⟩ := hall' j f.name e xj jn j1 j3 (hus.imp id fun h => listed_iff.mpr ((hl _).mp h))
    (by rw [hdec]; exact hs.len)
  obtain ⟨e', xj', τ', T', hs'⟩ := hspec' f' hf'
  have q1 := hs'.elem; rw [hfi, j1] at q1; obtain rfl := Option.some.inj q1
  have q2 := hs'.val; rw [hfi, j3] at q2; obtain rfl := Option.some.inj q2
  have q3 := hs'.coef; rw [hfi, j2] at q3
  have q4 : f'.coef = f.coef := (Option.some.inj q3).symm
  obtain ⟨u1, u2, u3⟩ := hs.unique hs' hfn q4 hct (hlf _) (ok.nodupA f hf) (ok.null f hf) (ok'.null f' hf')
  have hidx : d.varNames.idxOf f.name = f'.idx := by
    rw [hd.names, hfi]
    obtain ⟨hlt, he⟩ := List.getElem?_eq_some_iff.mp jn
    rw [← he]; exact hd.aset.wf.distinct.idxOf_getElem j hlt
  have heq : f.place d.varNames = f' := by
    unfold Feat.place
    cases f; cases f'
    simp only [Feat.mk.injEq] at *
    exact ⟨hfn.symm, hidx, q4.symm, u1.symm, u2.symm, u3.symm⟩
  refine ⟨heq ▸ hf', ?_⟩
  rw [hd.names]
  exact List.mem_of_getElem? jn

theorem feats_moved (hso : SetOrderOk ext) (hb : BuilderOK ext b) (hd : BuilderOK ext d) {feats feats' : List (Feat K)}
    (h1 : b.buildInfo ext x = .ok feats) (h2 : d.buildInfo ext x' = .ok feats')
    (hf : ∀ f ∈ feats, f.place d.varNames ∈ feats' ∧ f.name ∈ d.varNames)
    (hf' : ∀ f ∈ feats', f.place b.varNames ∈ feats ∧ f.name ∈ b.varNames) :
    Moved b.varNames d.varNames feats feats' := by
  obtain ⟨n1, -, s1, -⟩ := buildInfo_spec hso hb h1
  obtain ⟨n2, -, s2, -⟩ := buildInfo_spec hso hd h2
  have hidx : ∀ {b : Builder K} {x : List K} (hb : BuilderOK ext b) {f : Feat K},
      (∃ e xj t T, FeatSpec ext b x f e xj t T) → f.idx = b.varNames.idxOf f.name := by
    intro b x hb f ⟨e, xj, τ, T, hs⟩
    rw [hb.names]
    obtain ⟨hlt, he⟩ := List.getElem?_eq_some_iff.mp hs.name
    rw [← he]; exact (hb.aset.wf.distinct.idxOf_getElem _ hlt).symm
  have hplace : ∀ (ns ns' : List String) (f : Feat K), f.idx = ns'.idxOf f.name → (f.place ns).place ns' = f := by
    intro ns ns' f h
    unfold Feat.place
    cases f
    dsimp only at h ⊢
    rw [h]
  refine ⟨?_, fun f hm => (hf f hm).2, fun f hm => hidx hb (s1 f hm)⟩
  rw [List.perm_ext_iff_of_nodup (List.Nodup.of_map _ n2) ?_]
  · intro f
    constructor
    · intro hm
      exact List.mem_map.mpr ⟨f.place b.varNames, (hf' f hm).1, hplace _ _ f (hidx hd (s2 f hm))⟩
    · intro hm
      obtain ⟨g, hg, rfl⟩ := List.mem_map.mp hm
      exact (hf g hg).1
  · refine List.Nodup.of_map (fun f : Feat K => f.name) ?_
    rw [List.map_map]
    exact n1

/-- Limits of the moved choice. -/
theorem moved_limits (hso : SetOrderOk ext) (hb : BuilderOK ext b) (hd : BuilderOK ext d) {feats feats' : List (Feat K)}
    (h1 : b.buildInfo ext x = .ok feats) (h2 : d.buildInfo ext x' = .ok feats')
    (hm : Moved b.varNames d.varNames feats feats') (hla : LimitsApply b.aset x) (hla' : LimitsApply d.aset x')
    (hl : SameLimits b.aset d.aset)
    (hval : ∀ n, Listed b.aset n → x[b.aset.names.idxOf n]? = x'[d.aset.names.idxOf n]?)
    {κ : ℕ → ℕ} (hκ : Choice feats κ) (h : ∀ k ∈ b.aset.cons.items, LimitOK feats κ k) :
    ∀ k ∈ d.aset.cons.items, LimitOK feats' (moveChoice b.varNames d.varNames κ) k := by
  have ok := buildInfo_ok hso hb h1
  have ok' := buildInfo_ok hso hd h2
  have hκ' := hm.choice κ hκ
  rw [limits_iff hso hd h2 hla' hκ']
  rw [limits_iff hso hb h1 hla hκ] at h
  intro k' hk'
  obtain ⟨k, hk, e1, e2, e3⟩ := hl.2 k' hk'
  have key : numNonzero d.aset x' (actVec d.coefs.length feats' (moveChoice b.varNames d.varNames κ)) k'.names =
      numNonzero b.aset x (actVec b.coefs.length feats κ) k.names := by
    unfold numNonzero
    rw [e1.countP_eq]
    refine List.countP_congr fun n hn => ?_
    have hlist : Listed b.aset n := ⟨k, hk, e1.mem_iff.mpr hn⟩
    have hmem := (hb.aset.wf.cons k hk).known n (e1.mem_iff.mpr hn)
    obtain ⟨-, hu⟩ := hla _ n (List.getElem?_idxOf hmem) hlist
    obtain ⟨-, hxl, hspec, hall⟩ := buildInfo_spec hso hb h1
    have hlt : b.aset.names.idxOf n < b.aset.names.length := List.idxOf_lt_length_iff.mpr hmem
    obtain ⟨hc, hfit, v, hv, hp, -⟩ := hu _ le_rfl n _ _ (List.getElem?_idxOf hmem)
      (List.getElem?_eq_getElem (by rw [hb.aset.wf.length]; exact hlt)) (List.getElem?_eq_getElem (by rw [hxl]; exact hlt))
    obtain ⟨f, hf, hfn, hfi⟩ := hall _ n _ _ (List.getElem?_idxOf hmem)
      (List.getElem?_eq_getElem (by rw [hb.aset.wf.length]; exact hlt)) (List.getElem?_eq_getElem (by rw [hxl]; exact hlt))
      (Or.inl hc) (by
        have hdec : decide (n ∉ b.aset.cons.flatNames) = false :=
          decide_eq_false (not_not.mpr (listed_iff.mpr hlist))
        rw [hdec]
        exact two_le_of_mem ((mem_feasX fun _ => hfit).mpr ⟨hp, fun h => by cases h⟩)
          ((mem_feasX fun _ => hfit).mpr ⟨Or.inl rfl, fun h => by cases h⟩) hv)
    have hf' : f.place d.varNames ∈ feats' := hm.perm.mem_iff.mpr (List.mem_map_of_mem hf)
    have a1 : (actVec b.coefs.length feats κ)[f.idx]? = some (f.act κ) := put_feat ok (fun f => f.act κ) hf
    have a2 : (actVec d.coefs.length feats' (moveChoice b.varNames d.varNames κ))[(f.place d.varNames).idx]? =
        some (f.act κ) := by
      rw [← hm.act κ hf]
      exact put_feat ok' (fun f => f.act (moveChoice b.varNames d.varNames κ)) hf'
    have hfi' : (f.place d.varNames).idx = d.aset.names.idxOf n := by
      unfold Feat.place; dsimp only; rw [hd.names, hfn]
    rw [hfi] at a1
    rw [hfi'] at a2
    have hvv : (vadd x' (actVec d.coefs.length feats' (moveChoice b.varNames d.varNames κ))).getD
          (d.aset.names.idxOf n) 0 = (vadd x (actVec b.coefs.length feats κ)).getD (b.aset.names.idxOf n) 0 := by
      unfold vadd
      rw [List.getD_eq_getElem?_getD, List.getD_eq_getElem?_getD, List.getElem?_zipWith, List.getElem?_zipWith, a1, a2,
        hval n hlist]
    simp only [decide_eq_true_eq]
    rw [hvv]
  have h0 := h k hk
  rw [e2, e3] at h0
  rw [key]
  exact h0

section
variable (hA : A.Reachable ext) (hA' : A'.Reachable ext) (h : Leaves A A' w w' x x' t t' fr)
  (hb : mkBuilder be ct A w t = .ok b) (hd : mkBuilder be' ct A' w' t' = .ok d)
  (hx : x.length = w.length) (hx' : x'.length = w'.length)
include hA hA' h hb hd hx hx'

theorem Leaves.score : d.score x' = b.score x := by
  have rb : BuilderOK ext b := (Builder.Reachable.mk hA hb).ok
  have rd : BuilderOK ext d := (Builder.Reachable.mk hA' hd).ok
  have q4 := (mkBuilder_cols (x := x) hb).2.2.2
  have s4 := (mkBuilder_cols (x := x') hd).2.2.2
  have c1 := (mkBuilder_parts hb).2.1
  have c2 := (mkBuilder_parts hd).2.1
  have i1 := (mkBuilder_parts hb).2.2.1
  have i2 := (mkBuilder_parts hd).2.2.1
  have l1 : w.length = A.elems.length := by rw [hA.wf.length, ← q4, ← rb.coefs, c1]
  have l2 : w'.length = A'.elems.length := by rw [hA'.wf.length, ← s4, ← rd.coefs, c2]
  unfold Builder.score
  rw [c1, c2, i1, i2, dot_cols l1 (hx.trans l1), dot_cols l2 (hx'.trans l2), h.shift,
    (h.cols.map fun a : Col K => a.2.1 * a.2.2).sum_eq, List.map_append, List.sum_append]
  ring

theorem Leaves.sameLimits : SameLimits b.aset d.aset := by
  have q3 := (mkBuilder_cols (x := x) hb).2.2.1
  have s3 := (mkBuilder_cols (x := x') hd).2.2.1
  unfold SameLimits
  rw [q3, s3]
  exact h.limits

theorem Leaves.back (a : Col K) (ha : a ∈ d.aset.elems.zip (d.coefs.zip x')) :
    a ∈ b.aset.elems.zip (b.coefs.zip x) := by
  rw [(mkBuilder_cols (x := x) hb).1]
  rw [(mkBuilder_cols (x := x') hd).1, h.y, h.known] at ha
  obtain ⟨c, hc, rfl⟩ := List.mem_map.mp ha
  exact List.mem_map_of_mem (h.cols.mem_iff.mpr (List.mem_append_right _ hc))

theorem Leaves.forth (hla : LimitsApply b.aset x) {j : ℕ} {n : String} {e : Elem K} {v xj : K}
    (hn : b.aset.names[j]? = some n) (he : b.aset.elems[j]? = some e) (hv : b.coefs[j]? = some v)
    (hxj : x[j]? = some xj) (hu : e.compatible ≠ some false ∨ Listed b.aset n) :
    (e, v, xj) ∈ d.aset.elems.zip (d.coefs.zip x') := by
  have hm : (e, v, xj) ∈ b.aset.elems.zip (b.coefs.zip x) := col_mem.mpr ⟨j, he, hv, hxj⟩
  have hcmp : e.compatible ≠ some false := by
    rcases hu with hu | hu
    · exact hu
    · exact ((hla j n hn hu).2 j le_rfl n e xj hn he hxj).1
  rw [(mkBuilder_cols (x := x) hb).1] at hm
  rw [(mkBuilder_cols (x := x') hd).1, h.y, h.known]
  obtain ⟨c, hc, hce⟩ := List.mem_map.mp hm
  rcases List.mem_append.mp (h.cols.mem_iff.mp hc) with hf | hf
  · exfalso
    have hk : A.alignmentKnown = true → c.1.aligned = true := fun hk =>
      List.all_eq_true.mp hk c.1 (List.of_mem_zip hc).1
    have := frozen_compatible (y := A.yDesired) (h.frozen c hf) hk
    rw [hce] at this
    exact hcmp this
  · rw [← hce]
    exact List.mem_map_of_mem hf

end

theorem Moved.okL {ns ns' : List String} {feats feats' : List (Feat K)} (h : Moved ns ns' feats feats') (κ : ℕ → ℕ)
    {p p' : BuildArgs K} (hp : p.feats = feats) (hp' : p'.feats = feats')
    (hlim : ∀ c ∈ p'.limits, LimitOK feats' (moveChoice ns ns' κ) c)
    (hlo : p'.minItems = p.minItems) (hhi : feats'.length ≤ p'.maxItems) (hs : p'.score = p.score)
    (hy : p'.yDesired = p.yDesired) (hκ : ChoiceOK p κ) : ChoiceOK p' (moveChoice ns ns' κ) where
  lt := by rw [hp']; exact h.choice κ (hp ▸ hκ.lt)
  score := by rw [hp', h.gain, hs, hy, ← hp]; exact hκ.score
  lo := by rw [hp', h.size, hlo, ← hp]; exact hκ.lo
  hi := by rw [hp']; exact le_trans (List.countP_le_length) hhi
  limits := by rw [hp']; exact hlim

theorem Leaves.answers (hso : SetOrderOk ext) (hA : A.Reachable ext) (hA' : A'.Reachable ext)
    (h : Leaves A A' w w' x x' t t' fr)
    (hb : mkBuilder be ct A w t = .ok b) (hd : mkBuilder be' ct A' w' t' = .ok d)
    (hla : LimitsApply b.aset x) (hla' : LimitsApply d.aset x')
    (ho : o.Exact) (ho' : o'.Exact) (hx : b.setX ext x = (b1, .ok ())) (hx' : d.setX ext x' = (d1, .ok ()))
    (hr : b1.Refitted o b2) (hr' : d1.Refitted o' d2)
    (hf : b2.fit o = .ok (b3, i)) (hf' : d2.fit o' = .ok (d3, i')) :
    i'.feasible = i.feasible ∧ i'.upperbound = i.upperbound ∧ (ct ≠ .max → i'.cost = i.cost) := by
  have rb : b.Reachable ext := .mk hA hb
  have rd : d.Reachable ext := .mk hA' hd
  obtain ⟨-, c1, -, t1, v1, m1, -⟩ := mkBuilder_parts hb
  obtain ⟨-, c2, -, t2, v2, m2, -⟩ := mkBuilder_parts hd
  have M1 := (mkBuilder_offers hA hb).2.2.2.2.2.2
  have M2 := (mkBuilder_offers hA' hd).2.2.2.2.2.2
  obtain ⟨-, q2, q3, q4⟩ := mkBuilder_cols (x := x) hb
  obtain ⟨-, s2, s3, s4⟩ := mkBuilder_cols (x := x') hd
  have lx : x.length = w.length := by
    obtain ⟨_, _, h0, -⟩ := setX_ok hx
    rw [← c1]; exact h0
  have lx' : x'.length = w'.length := by
    obtain ⟨_, _, h0, -⟩ := setX_ok hx'
    rw [← c2]; exact h0
  obtain ⟨feats, a1, a2, a3⟩ := Posed.setX hso rb.ok hx
  obtain ⟨feats', e1, e2, e3⟩ := Posed.setX hso rd.ok hx'
  have hN1 : feats.length ≤ b.maxItems := by
    have := feats_length_le hso rb.ok a1
    rw [M1, ← (mkBuilder_offers hA hb).1.numActionable]; exact this
  have hN2 : feats'.length ≤ d.maxItems := by
    have := feats_length_le hso rd.ok e1
    rw [M2, ← (mkBuilder_offers hA' hd).1.numActionable]; exact this
  have hs := h.score hA hA' hb hd lx lx'
  have hl := h.sameLimits hA hA' hb hd lx lx'
  have hct : d.costType = b.costType := by rw [t1, t2]
  have forth := fun (j : ℕ) (n : String) (e : Elem K) (v xj : K) hn he hv hxj hu =>
    h.forth hA hA' hb hd lx lx' hla (j := j) (n := n) (e := e) (v := v) (xj := xj) hn he hv hxj hu
  have back : ∀ (j : ℕ) (n : String) (e : Elem K) (v xj : K), d.aset.names[j]? = some n → d.aset.elems[j]? = some e →
      d.coefs[j]? = some v → x'[j]? = some xj → (e.compatible ≠ some false ∨ Listed d.aset n) →
      (e, v, xj) ∈ b.aset.elems.zip (b.coefs.zip x) := fun j n e v xj _ he hv hxj _ =>
    h.back hA hA' hb hd lx lx' (e, v, xj) (col_mem.mpr ⟨j, he, hv, hxj⟩)
  have g1 := feats_sub hso rb.ok rd.ok a1 e1 hct hl.listed forth
  have g2 := feats_sub hso rd.ok rb.ok e1 a1 hct.symm (fun n => (hl.listed n).symm) back
  have mv := feats_moved hso rb.ok rd.ok a1 e1 g1 g2
  have mv' := feats_moved hso rd.ok rb.ok e1 a1 g2 g1
  have hxl : x.length = b.aset.names.length := by rw [lx, ← c1, rb.ok.coefs]
  have hval : ∀ n, Listed b.aset n → x[b.aset.names.idxOf n]? = x'[d.aset.names.idxOf n]? := by
    rintro n ⟨k, hk, hn⟩
    have hmem := (rb.ok.aset.wf.cons k hk).known n hn
    have hlt : b.aset.names.idxOf n < b.aset.names.length := List.idxOf_lt_length_iff.mpr hmem
    obtain ⟨e, he⟩ : ∃ e, b.aset.elems[b.aset.names.idxOf n]? = some e :=
      ⟨_, List.getElem?_eq_getElem (by rw [rb.ok.aset.wf.length]; exact hlt)⟩
    have hv := List.getElem?_eq_getElem (l := b.coefs) (by rw [rb.ok.coefs]; exact hlt)
    have hxj := List.getElem?_eq_getElem (l := x) (by rw [hxl]; exact hlt)
    obtain ⟨j, j1, -, j3⟩ := col_mem.mp (forth _ n _ _ _ (List.getElem?_idxOf hmem) he hv hxj (Or.inr ⟨k, hk, hn⟩))
    dsimp only at j1 j3
    have hbn : some n = some e.name := by
      rw [← List.getElem?_idxOf hmem]
      generalize b.aset.names.idxOf n = j at he
      rw [← rb.ok.aset.wf.names, List.getElem?_map, he]; rfl
    have hdn : d.aset.names[j]? = some n := by
      rw [← rd.ok.aset.wf.names, List.getElem?_map, j1, Option.map_some, ← Option.some.inj hbn]
    have : d.aset.names.idxOf n = j := by
      obtain ⟨hlt, he⟩ := List.getElem?_eq_some_iff.mp hdn
      rw [← he]; exact rd.ok.aset.wf.distinct.idxOf_getElem j hlt
    rw [this, j3, hxj]
  have fw : ∀ κ, ChoiceOK (b.buildArgs x feats) κ → ∃ κ', ChoiceOK (d.buildArgs x' feats') κ' ∧
        choiceObj (b.buildArgs x feats).costType feats' κ' = choiceObj (b.buildArgs x feats).costType feats κ := by
    intro κ hκ
    refine ⟨_, mv.okL κ (p := b.buildArgs x feats) (p' := d.buildArgs x' feats') rfl rfl ?_ ?_ hN2 hs ?_ hκ, mv.obj κ _⟩
    · exact moved_limits hso rb.ok rd.ok a1 e1 mv hla hla' hl hval hκ.lt hκ.limits
    · unfold Builder.buildArgs; dsimp only; rw [m1, m2]
    · unfold Builder.buildArgs; dsimp only; rw [s2, q2, h.y]
  have bw : ∀ κ, ChoiceOK (d.buildArgs x' feats') κ → ∃ κ', ChoiceOK (b.buildArgs x feats) κ' ∧
        choiceObj (d.buildArgs x' feats').costType feats κ' = choiceObj (d.buildArgs x' feats').costType feats' κ := by
    intro κ hκ
    refine ⟨_, mv'.okL κ (p := d.buildArgs x' feats') (p' := b.buildArgs x feats) rfl rfl ?_ ?_ hN1 hs.symm ?_ hκ,
      mv'.obj κ _⟩
    · exact moved_limits hso rd.ok rb.ok e1 a1 mv' hla' hla hl.symm (fun n hn => (hval n ((hl.listed n).mpr hn)).symm)
        hκ.lt hκ.limits
    · unfold Builder.buildArgs; dsimp only; rw [m1, m2]
    · unfold Builder.buildArgs; dsimp only; rw [s2, q2, h.y]
  obtain ⟨-, -, rfl⟩ := fit_ok hf
  obtain ⟨-, -, rfl⟩ := fit_ok hf'
  have pb := a3.refitted hr
  have pd := e3.refitted hr'
  have k1 : (b.buildArgs x feats).costType = ct := t1
  have k2 : (d.buildArgs x' feats').costType = ct := t2
  have fwe := fun κ hκ => (fw κ hκ).imp fun _ h => h.1
  have bwe := fun κ hκ => (bw κ hκ).imp fun _ h => h.1
  cases hfi : (b2.solve o).solutionInfo.feasible with
  | true =>
    have hfi' := posed_feasible_map a2 e2 pb pd ho.1 ho' fwe hfi
    refine ⟨hfi', ?_⟩
    obtain ⟨u, u', z1, z2, z3, z4⟩ := posed_bound_map a2 e2 pb pd ho ho' fw (by rw [k1, k2]) hfi
    obtain ⟨v, v', y1, y2, y3, -⟩ := posed_bound_map e2 a2 pd pb ho' ho bw (by rw [k1, k2]) hfi'
    rw [z2] at y1; rw [z1] at y2
    cases y1; cases y2
    have : u' = u := le_antisymm z3 y3
    subst this
    refine ⟨by rw [z1, z2], fun hm => ?_⟩
    obtain ⟨n1, n2⟩ := z4 (by rw [k1]; exact hm)
    rw [n1, n2]
  | false =>
    have hfi' : (d2.solve o').solutionInfo.feasible = false := by
      cases hc : (d2.solve o').solutionInfo.feasible with
      | false => rfl
      | true => rw [posed_feasible_map e2 a2 pd pb ho'.1 ho bwe hc] at hfi; cases hfi
    refine ⟨hfi', ?_⟩
    have : ∀ {n be p P} {b : Builder K} {o : Oracle K}, FeatsOK n p.feats → Posed n be p P b → o.Sound →
        (b.solve o).solutionInfo.feasible = false → (b.solve o).solutionInfo = emptyInfo := by
      intro n be p P b o g1 g2 g3 g4
      rcases g2.solved g1 g3 with ⟨-, he, -⟩ | ⟨σ, κ, -, -, -, -, hr, -⟩
      · exact he
      · rw [hr.feasible] at g4; cases g4
    rw [this a2 pb ho.1 hfi, this e2 pd ho'.1 hfi']
    exact ⟨rfl, fun _ => rfl⟩

/-! ## Acceptance -/

theorem mkBuilder_flips (hb : mkBuilder be ct A w t = .ok b) : ∀ e ∈ b.aset.elems, e.flip ≠ none := by
  have h1 := (mkBuilder_parts hb).1
  have hk : b.aset.alignmentKnown = true := by
    by_cases hk : A.alignmentKnown = true
    · rw [if_pos hk] at h1
      rw [← Except.ok.inj h1]; exact hk
    · rw [if_neg hk] at h1
      exact setAlignment_known h1
  intro e he hn
  have := List.all_eq_true.mp hk e he
  unfold Elem.aligned at this
  rw [hn] at this
  cases this

/-- The conditions on a point in terms of columns. -/
theorem features_transfer (hb : BuilderOK ext b) (hd : BuilderOK ext d) (hct : d.costType = b.costType)
    (hy : d.aset.yDesired = b.aset.yDesired) (hl : ∀ n, Listed b.aset n ↔ Listed d.aset n)
    (hx : x.length = b.coefs.length) (hx' : x'.length = d.coefs.length) (hal : ∀ e ∈ d.aset.elems, e.flip ≠ none)
    (forth : ∀ (j : ℕ) (n : String) (e : Elem K) (v xj : K), b.aset.names[j]? = some n → b.aset.elems[j]? = some e →
      b.coefs[j]? = some v → x[j]? = some xj → (e.compatible ≠ some false ∨ Listed b.aset n) →
      (e, v, xj) ∈ d.aset.elems.zip (d.coefs.zip x'))
    (back : ∀ (j : ℕ) (n : String) (e : Elem K) (v xj : K), d.aset.names[j]? = some n → d.aset.elems[j]? = some e →
      d.coefs[j]? = some v → x'[j]? = some xj → (e.compatible ≠ some false ∨ Listed d.aset n) →
      (e, v, xj) ∈ b.aset.elems.zip (b.coefs.zip x))
    (h : FeaturesInOrder ext b x) : FeaturesInOrder ext d x' := by
  have hname : ∀ {b : Builder K} (hb : BuilderOK ext b) {j : ℕ} {n : String} {e : Elem K}, b.aset.elems[j]? = some e →
      (b.aset.names[j]? = some n ↔ n = e.name) := by
    intro b hb j n e he
    rw [← hb.aset.wf.names, List.getElem?_map, he]
    exact ⟨fun h => (Option.some.inj h).symm, fun h => by rw [h]; rfl⟩
  -- columns of `d` are columns of `b`
  have hcol : ∀ (j : ℕ) (n : String) (e : Elem K) (v xj : K), d.aset.names[j]? = some n → d.aset.elems[j]? = some e →
      d.coefs[j]? = some v → x'[j]? = some xj → (e.compatible ≠ some false ∨ Listed d.aset n) →
      ∃ i : ℕ, b.aset.names[i]? = some n ∧ b.aset.elems[i]? = some e ∧ b.coefs[i]? = some v ∧ x[i]? = some xj := by
    intro j n e v xj hn he hv hxj hu
    obtain ⟨i, i1, i2, i3⟩ := col_mem.mp (back j n e v xj hn he hv hxj hu)
    exact ⟨i, (hname hb i1).mpr ((hname hd he).mp hn), i1, i2, i3⟩
  have hcol' : ∀ (j : ℕ) (n : String) (e : Elem K) (v xj : K), b.aset.names[j]? = some n → b.aset.elems[j]? = some e →
      b.coefs[j]? = some v → x[j]? = some xj → (e.compatible ≠ some false ∨ Listed b.aset n) →
      ∃ i : ℕ, d.aset.names[i]? = some n ∧ d.aset.elems[i]? = some e ∧ d.coefs[i]? = some v ∧ x'[i]? = some xj := by
    intro j n e v xj hn he hv hxj hu
    obtain ⟨i, i1, i2, i3⟩ := col_mem.mp (forth j n e v xj hn he hv hxj hu)
    exact ⟨i, (hname hd i1).mpr ((hname hb he).mp hn), i1, i2, i3⟩
  have hdl : d.coefs.length = d.aset.names.length := hd.coefs
  have hbl : b.coefs.length = b.aset.names.length := hb.coefs
  -- columns of the program
  have hin : ∀ {b d : Builder K} {x x' : List K} {i j : ℕ} {n : String} {e : Elem K} {xj : K},
      (∀ n, Listed b.aset n ↔ Listed d.aset n) → b.aset.names[i]? = some n → b.aset.elems[i]? = some e → x[i]? = some xj →
      d.aset.names[j]? = some n → d.aset.elems[j]? = some e → x'[j]? = some xj → InProgram d.aset x' j →
      InProgram b.aset x i := by
    intro b d x x' i j n e xj hl b1 b2 b3 d1 d2 d3 ⟨⟨n', e', xj', v, h1, h2, h3, h4, h5, h6⟩, h7⟩
    rw [d1] at h1; cases h1
    rw [d2] at h2; cases h2
    rw [d3] at h3; cases h3
    refine ⟨⟨n, e, xj, v, b1, b2, b3, h4, h5, fun hn => h6 fun hc => hn ((hl n).mpr hc)⟩, ?_⟩
    rcases h7 with h7 | ⟨n', h7, h8⟩
    · exact Or.inl fun e' he' => by rw [b2] at he'; cases he'; exact h7 e d2
    · rw [d1] at h7; cases h7
      exact Or.inr ⟨n, b1, (hl n).mpr h8⟩
  have huse : ∀ {d : Builder K} {x' : List K} {j : ℕ} {n : String} {e : Elem K}, d.aset.names[j]? = some n →
      d.aset.elems[j]? = some e → InProgram d.aset x' j → e.compatible ≠ some false ∨ Listed d.aset n := by
    intro d x' j n e hn he ⟨_, h⟩
    rcases h with h | ⟨n', h1, h2⟩
    · exact Or.inl (h e he)
    · rw [hn] at h1; cases h1; exact Or.inr h2
  have get : ∀ {d : Builder K} {x' : List K} (hd : BuilderOK ext d) (hx' : x'.length = d.coefs.length) {j : ℕ},
      j < d.aset.names.length → ∃ n e v xj, d.aset.names[j]? = some n ∧ d.aset.elems[j]? = some e ∧
        d.coefs[j]? = some v ∧ x'[j]? = some xj := by
    intro d x' hd hx' j hj
    exact ⟨_, _, _, _, List.getElem?_eq_getElem hj, List.getElem?_eq_getElem (by rw [hd.aset.wf.length]; exact hj),
      List.getElem?_eq_getElem (by rw [hd.coefs]; exact hj), List.getElem?_eq_getElem (by rw [hx', hd.coefs]; exact hj)⟩
  have lt : ∀ {d : Builder K} {x' : List K} {j : ℕ}, InProgram d.aset x' j → j < d.aset.names.length := by
    intro d x' j ⟨⟨n, _, _, _, h1, _⟩, _⟩
    exact (List.getElem?_eq_some_iff.mp h1).1
  refine ⟨hx', hal, ?_, ?_, ?_, ?_, ?_, ?_⟩
  · intro j n e hn he hu
    obtain ⟨n', e', v, xj, g1, g2, g3, g4⟩ := get hd hx' (List.getElem?_eq_some_iff.mp hn).1
    obtain ⟨i, i1, i2, -⟩ := hcol j n e v xj hn he g3 g4 hu
    exact h.scores i n e i1 i2 (hu.imp id (hl n).mpr)
  · intro j v hv hj
    obtain ⟨n, e, v', xj, g1, g2, g3, g4⟩ := get hd hx' (lt hj)
    rw [hv] at g3; cases g3
    obtain ⟨i, i1, i2, i3, i4⟩ := hcol j n e v xj g1 g2 hv g4 (huse g1 g2 hj)
    exact h.coefs i v i3 (hin hl i1 i2 i4 g1 g2 g4 hj)
  · intro j n e v hn he hv hj hnl
    obtain ⟨n', e', v', xj, g1, g2, g3, g4⟩ := get hd hx' (lt hj)
    obtain ⟨i, i1, i2, i3, i4⟩ := hcol j n e v xj hn he hv g4 (huse hn he hj)
    rw [hy]
    exact h.agrees i n e v i1 i2 i3 (hin hl i1 i2 i4 hn he g4 hj) fun hc => hnl ((hl n).mp hc)
  · intro j n e xj hn he hxj hj hlist
    obtain ⟨n', e', v, xj', g1, g2, g3, g4⟩ := get hd hx' (lt hj)
    obtain ⟨i, i1, i2, i3, i4⟩ := hcol j n e v xj hn he g3 hxj (huse hn he hj)
    exact h.side i n e xj i1 i2 i4 (hin hl i1 i2 i4 hn he hxj hj) ((hl n).mpr hlist)
  · intro j n e xj hn he hxj hj hlist
    obtain ⟨n', e', v, xj', g1, g2, g3, g4⟩ := get hd hx' (lt hj)
    obtain ⟨i, i1, i2, i3, i4⟩ := hcol j n e v xj hn he g3 hxj (huse hn he hj)
    exact h.zero i n e xj i1 i2 i4 (hin hl i1 i2 i4 hn he hxj hj) ((hl n).mpr hlist)
  · rw [hct]
    refine h.some.imp id ?_
    rintro ⟨j, hj⟩
    obtain ⟨n, e, v, xj, g1, g2, g3, g4⟩ := get hb hx (lt hj)
    obtain ⟨i, i1, i2, i3, i4⟩ := hcol' j n e v xj g1 g2 g3 g4 (huse g1 g2 hj)
    exact ⟨i, hin (fun n => (hl n).symm) i1 i2 i4 g1 g2 g4 hj⟩

theorem Leaves.placed (hA : A.Reachable ext) (hA' : A'.Reachable ext) (h : Leaves A A' w w' x x' t t' fr)
    (hb : mkBuilder be ct A w t = .ok b) (hd : mkBuilder be' ct A' w' t' = .ok d)
    (hx : x.length = w.length) (hx' : x'.length = w'.length) (hp : Placed ext b x) : Placed ext d x' := by
  have rd : BuilderOK ext d := (Builder.Reachable.mk hA' hd).ok
  have hct : d.costType = b.costType := by rw [(mkBuilder_parts hb).2.2.2.1, (mkBuilder_parts hd).2.2.2.1]
  have key : ∀ (j : ℕ) (e : Elem K) (xj : K), d.aset.elems[j]? = some e → x'[j]? = some xj →
      ∃ i : ℕ, b.aset.elems[i]? = some e ∧ x[i]? = some xj := by
    intro j e xj he hxj
    have hj : j < d.coefs.length := by
      rw [rd.coefs, ← rd.aset.wf.length]; exact (List.getElem?_eq_some_iff.mp he).1
    obtain ⟨i, i1, -, i3⟩ := col_mem.mp (h.back hA hA' hb hd hx hx' (e, d.coefs[j], xj)
      (col_mem.mpr ⟨j, he, List.getElem?_eq_getElem hj, hxj⟩))
    exact ⟨i, i1, i3⟩
  refine ⟨?_, ?_, ?_, ?_⟩
  · intro j e xj he hxj ha
    obtain ⟨i, i1, i2⟩ := key j e xj he hxj
    exact hp.fits i e xj i1 i2 ha
  · intro j e xj v he hxj ha
    obtain ⟨i, i1, i2⟩ := key j e xj he hxj
    exact hp.apart i e xj v i1 i2 ha
  · intro j e xj u v p q he hxj ha
    obtain ⟨i, i1, i2⟩ := key j e xj he hxj
    exact hp.pct i e xj u v p q i1 i2 ha
  · intro hc j e xj v q he hxj ha
    obtain ⟨i, i1, i2⟩ := key j e xj he hxj
    exact hp.below (hct ▸ hc) i e xj v q i1 i2 ha

theorem Leaves.accepts (hso : SetOrderOk ext) (hon : SetOrderOnce ext) (hlog : LogIncreasing ext)
    (hA : A.Reachable ext) (hA' : A'.Reachable ext) (h : Leaves A A' w w' x x' t t' fr)
    (hb : mkBuilder be ct A w t = .ok b) (hd : mkBuilder be' ct A' w' t' = .ok d)
    (hx : x.length = w.length) (hx' : x'.length = w'.length) (hla : LimitsApply b.aset x) (hla' : LimitsApply d.aset x')
    (hp : Placed ext b x) : (d.setX ext x').2 = .ok () ↔ (b.setX ext x).2 = .ok () := by
  have rb : b.Reachable ext := .mk hA hb
  have rd : d.Reachable ext := .mk hA' hd
  obtain ⟨-, c1, -, t1, -⟩ := mkBuilder_parts hb
  obtain ⟨-, c2, -, t2, -⟩ := mkBuilder_parts hd
  obtain ⟨-, q2, -⟩ := mkBuilder_cols (x := x) hb
  obtain ⟨-, s2, -⟩ := mkBuilder_cols (x := x') hd
  have hl := h.sameLimits hA hA' hb hd hx hx'
  have forth := fun (j : ℕ) (n : String) (e : Elem K) (v xj : K) hn he hv hxj hu =>
    h.forth hA hA' hb hd hx hx' hla (j := j) (n := n) (e := e) (v := v) (xj := xj) hn he hv hxj hu
  have back : ∀ (j : ℕ) (n : String) (e : Elem K) (v xj : K), d.aset.names[j]? = some n → d.aset.elems[j]? = some e →
      d.coefs[j]? = some v → x'[j]? = some xj → (e.compatible ≠ some false ∨ Listed d.aset n) →
      (e, v, xj) ∈ b.aset.elems.zip (b.coefs.zip x) := fun j n e v xj _ he hv hxj _ =>
    h.back hA hA' hb hd hx hx' (e, v, xj) (col_mem.mpr ⟨j, he, hv, hxj⟩)
  rw [C88_exact hso hon hlog rb hp, C88_exact hso hon hlog rd (h.placed hA hA' hb hd hx hx' hp)]
  have p1 : PositionsExist ext b.aset x :=
    (C106_agree rb.ok.aset (by rw [hx, ← c1, rb.ok.coefs]) hla (a := x) rfl).1
  have p2 : PositionsExist ext d.aset x' :=
    (C106_agree rd.ok.aset (by rw [hx', ← c2, rd.ok.coefs]) hla' (a := x') rfl).1
  constructor
  · intro hacc
    exact ⟨features_transfer rd.ok rb.ok (by rw [t1, t2]) (by rw [q2, s2, h.y]) (fun n => (hl.listed n).symm)
      (by rw [c2]; exact hx') (by rw [c1]; exact hx) (mkBuilder_flips hb) back forth hacc.toFeaturesInOrder, p1⟩
  · intro hacc
    exact ⟨features_transfer rb.ok rd.ok (by rw [t1, t2]) (by rw [q2, s2, h.y]) hl.listed
      (by rw [c1]; exact hx) (by rw [c2]; exact hx') (mkBuilder_flips hd) forth back hacc.toFeaturesInOrder, p2⟩

/-! ## C77 and C78 with subset limits -/

/-- Columns in another order. -/
theorem leaves_of_perm (hA : A.Reachable ext) (hA' : A'.Reachable ext) (hy : A'.yDesired = A.yDesired)
    (hl : SameLimits A A') (hp : (A'.elems.zip (w'.zip x')).Perm (A.elems.zip (w.zip x)))
    (hb : mkBuilder be ct A w t = .ok b) (hd : mkBuilder be' ct A' w' t = .ok d)
    (hx : x.length = w.length) (hx' : x'.length = w'.length) : Leaves A A' w w' x x' t t [] where
  y := hy
  limits := hl
  cols := hp.symm
  frozen := by intro a ha; cases ha
  known := by
    have rb : BuilderOK ext b := (Builder.Reachable.mk hA hb).ok
    have rd : BuilderOK ext d := (Builder.Reachable.mk hA' hd).ok
    have q4 := (mkBuilder_cols (x := x) hb).2.2.2
    have s4 := (mkBuilder_cols (x := x') hd).2.2.2
    have l1 : w.length = A.elems.length := by rw [hA.wf.length, ← q4, ← rb.coefs, (mkBuilder_parts hb).2.1]
    have l2 : w'.length = A'.elems.length := by rw [hA'.wf.length, ← s4, ← rd.coefs, (mkBuilder_parts hd).2.1]
    have := hp.map (·.1)
    rw [zip_elems l1 (hx.trans l1), zip_elems l2 (hx'.trans l2)] at this
    unfold ActionSet.alignmentKnown
    exact this.all_eq
  shift := by simp

/-- **C77** with subset limits (partial: when the limits apply at both points in the sense of `LimitsApply` - no usable column is missing
before a listed one, listed values are nonnegative; without that it is false, `C77_limits_refuted`).  If the columns (feature, coefficient, value) of
two sets are the same in another order and the sets have the same subset limits, there is recourse for the one point iff there is
for the other, and the objective (for total and local costs, the cost reported) is the same; with grids and percentiles in
order, the one point is accepted iff the other is. -/
theorem C77_subsets_partial (hso : SetOrderOk ext) (hA : A.Reachable ext) (hA' : A'.Reachable ext)
    (hy : A'.yDesired = A.yDesired) (hl : SameLimits A A')
    (hp : (A'.elems.zip (w'.zip x')).Perm (A.elems.zip (w.zip x)))
    (hb : mkBuilder be ct A w t = .ok b) (hd : mkBuilder be' ct A' w' t = .ok d)
    (hla : LimitsApply b.aset x) (hla' : LimitsApply d.aset x') (hlen : x.length = w.length) (hlen' : x'.length = w'.length) :
    (SetOrderOnce ext → LogIncreasing ext → Placed ext b x →
      ((d.setX ext x').2 = .ok () ↔ (b.setX ext x).2 = .ok ())) ∧
    ∀ {o o' : Oracle K} {b1 b2 b3 d1 d2 d3 : Builder K} {i i' : Info K}, o.Exact → o'.Exact →
      b.setX ext x = (b1, .ok ()) → d.setX ext x' = (d1, .ok ()) → b1.Refitted o b2 → d1.Refitted o' d2 →
      b2.fit o = .ok (b3, i) → d2.fit o' = .ok (d3, i') →
      i'.feasible = i.feasible ∧ i'.upperbound = i.upperbound ∧ (ct ≠ .max → i'.cost = i.cost) := by
  have h := leaves_of_perm hA hA' hy hl hp hb hd hlen hlen'
  exact ⟨fun hon hlog hpl => h.accepts hso hon hlog hA hA' hb hd hlen hlen' hla hla' hpl,
    fun ho ho' hx hx' hr hr' hf hf' => h.answers hso hA hA' hb hd hla hla' ho ho' hx hx' hr hr' hf hf'⟩

/-- **C78** with subset limits (partial: when the limits apply at both points in the sense of `LimitsApply`; without that it is false,
`C78_limits_refuted`).  Features that are not actionable, or whose coefficient is 0 (for sets not aligned otherwise before), can be left out
when their part of the score is moved to the intercept (`Leaves`): there is recourse for the full point iff there is for the reduced
one, and the objective (for total and local costs, the cost reported) is the same; with grids and percentiles in order, the one
point is accepted iff the other is. -/
theorem C78_subsets_partial (hso : SetOrderOk ext) (hA : A.Reachable ext) (hA' : A'.Reachable ext)
    (h : Leaves A A' w w' x x' t t' fr)
    (hb : mkBuilder be ct A w t = .ok b) (hd : mkBuilder be' ct A' w' t' = .ok d)
    (hla : LimitsApply b.aset x) (hla' : LimitsApply d.aset x') (hlen : x.length = w.length) (hlen' : x'.length = w'.length) :
    (SetOrderOnce ext → LogIncreasing ext → Placed ext b x →
      ((d.setX ext x').2 = .ok () ↔ (b.setX ext x).2 = .ok ())) ∧
    ∀ {o o' : Oracle K} {b1 b2 b3 d1 d2 d3 : Builder K} {i i' : Info K}, o.Exact → o'.Exact →
      b.setX ext x = (b1, .ok ()) → d.setX ext x' = (d1, .ok ()) → b1.Refitted o b2 → d1.Refitted o' d2 →
      b2.fit o = .ok (b3, i) → d2.fit o' = .ok (d3, i') →
      i'.feasible = i.feasible ∧ i'.upperbound = i.upperbound ∧ (ct ≠ .max → i'.cost = i.cost) :=
  ⟨fun hon hlog hpl => h.accepts hso hon hlog hA hA' hb hd hlen hlen' hla hla' hpl,
    fun ho ho' hx hx' hr hr' hf hf' => h.answers hso hA hA' hb hd hla hla' ho ho' hx hx' hr hr' hf hf'⟩

end Recourse
