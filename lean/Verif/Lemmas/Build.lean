import Verif.Lemmas.Choice
import Verif.Props.Sets

/-!
# What a successful build says about the usable features
-/

set_option linter.unusedSectionVars false

namespace Recourse

variable {K : Type} [Field K] [LinearOrder K] [IsStrictOrderedRing K] [FloorRing K]

/-- Invariants of builders that the build relies on. -/
structure BuilderOK (ext : Ext K) (b : Builder K) : Prop where
  aset : b.aset.Reachable ext
  names : b.varNames = b.aset.names
  coefs : b.coefs.length = b.aset.names.length

/-- Cost of moving one feature from `x` to `v`, upwards or downwards, for a percentile function `P`. -/
def stepCost (ext : Ext K) (ct : CostType) (P : K → K) (x : K) (up : Bool) (v : K) : K :=
  if ct = .loc then
    if up then ext.log ((1 - P x) / (1 - P v)) else ext.log ((1 - P v) / (1 - P x))
  else if up then P v - P x else P x - P v

/-- The offered values in build order. -/
def buildOrder (V : List K) (xj : K) : Bool × List K :=
  if isClose (V.getLastD 0 - xj) 0 then (false, V.reverse) else (true, V)

/-- Everything a build guarantees about a usable feature `f`: it belongs to column `f.idx`, whose
element is `e` and value `xj`; its actions are the offered moves in build order, without those flagged
as numerical noise. -/
structure FeatSpec (ext : Ext K) (b : Builder K) (x : List K) (f : Feat K) (e : Elem K) (xj : K) (t : Table K)
    (T : List K) : Prop where
  name : b.aset.names[f.idx]? = some f.name
  elem : b.aset.elems[f.idx]? = some e
  val : x[f.idx]? = some xj
  coef : b.coefs[f.idx]? = some f.coef
  table : e.table ext = .ok t
  usable : e.compatible ≠ some false ∨ f.name ∈ b.aset.cons.flatNames
  len : 2 ≤ (e.feasX xj (decide (f.name ∉ b.aset.cons.flatNames))).length
  order : (buildOrder (e.feasX xj (decide (f.name ∉ b.aset.cons.flatNames))) xj).2 = xj :: T
  actions : f.actions = 0 :: (T.filter fun v => !isBug (v - xj) (stepCost ext b.costType t.eval xj
      (buildOrder (e.feasX xj (decide (f.name ∉ b.aset.cons.flatNames))) xj).1 v)).map (· - xj)
  costs : f.costs = 0 :: (T.filter fun v => !isBug (v - xj) (stepCost ext b.costType t.eval xj
      (buildOrder (e.feasX xj (decide (f.name ∉ b.aset.cons.flatNames))) xj).1 v)).map
        (stepCost ext b.costType t.eval xj
          (buildOrder (e.feasX xj (decide (f.name ∉ b.aset.cons.flatNames))) xj).1)
  check : checkFeat b.aset.yDesired b.aset.cons.flatNames f = true
  null : (f.name ∈ b.aset.cons.flatNames ∧ 0 < xj → f.actions[f.kNull]? = some (-xj)) ∧
    (¬ (f.name ∈ b.aset.cons.flatNames ∧ 0 < xj) → f.kNull = 0)

theorem dropBugs_head {l r : List (K × K)} (h : dropBugs l = some r) (h0 : (r.map (·.1)).headD 1 = 0) :
    ∃ c t, l = (0, c) :: t ∧ r = (0, c) :: t.filter fun q => !isBug q.1 q.2 := by
  cases l with
  | nil => simp [dropBugs] at h
  | cons p t =>
    obtain ⟨a, c⟩ := p
    unfold dropBugs at h
    split_ifs at h with hb
    · cases h
      simp only [List.map_cons, List.headD_cons] at h0
      subst h0
      exact ⟨c, t, rfl, rfl⟩
    · simp only [Option.map_eq_some_iff] at h
      obtain ⟨r', -, rfl⟩ := h
      simp only [List.map_cons, List.headD_cons] at h0
      subst h0
      exfalso
      apply hb
      have h8 : (0 : K) ≤ 1 / 10 ^ 8 := by positivity
      simp [isBug, isClose, isCloseTol]

theorem orient_zip (ext : Ext K) (ct : CostType) (P : K → K) (V : List K) (xj : K) (hne : V ≠ []) {T : List K} {h : K}
    (hT : (buildOrder V xj).2 = h :: T) :
    (orient ext ct (V.map (· - xj)) (V.map P)).1.zip (orient ext ct (V.map (· - xj)) (V.map P)).2
      = (buildOrder V xj).2.map fun v => (v - xj, stepCost ext ct P h (buildOrder V xj).1 v) := by
  have hlast : (V.map (· - xj)).getLastD 0 = V.getLastD 0 - xj := by
    rw [List.getLastD_eq_getLast?, List.getLastD_eq_getLast?, List.getLast?_map]
    rw [List.getLast?_eq_some_getLast hne]; rfl
  have zmap : ∀ (l : List K) (f g : K → K), (l.map f).zip (l.map g) = l.map fun v => (f v, g v) := by
    intro l f g
    induction l with
    | nil => rfl
    | cons a l ih => simp [ih]
  unfold orient
  unfold buildOrder at hT ⊢
  rw [hlast]
  by_cases hcl : isClose (V.getLastD 0 - xj) 0 = true
  · rw [if_pos hcl] at hT
    rw [if_pos hcl, if_pos hcl]
    dsimp only at hT ⊢
    rw [← List.map_reverse, ← List.map_reverse, hT]
    unfold costDn stepCost
    simp only [List.map_cons, List.headD_cons]
    by_cases hct : ct = .loc
    · simp only [hct, if_true, List.map_map, List.map_cons, List.zip_cons_cons, Bool.false_eq_true, if_false]
      rw [zmap]; rfl
    · simp only [hct, if_false, List.map_map, List.map_cons, List.zip_cons_cons, Bool.false_eq_true]
      rw [zmap]; rfl
  · rw [if_neg hcl] at hT
    rw [if_neg hcl, if_neg hcl]
    dsimp only at hT ⊢
    rw [hT]
    unfold costUp stepCost
    simp only [List.map_cons, List.headD_cons]
    by_cases hct : ct = .loc
    · simp only [hct, if_true, List.map_map, List.map_cons, List.zip_cons_cons]
      rw [zmap]; rfl
    · simp only [hct, if_false, List.map_map, List.map_cons, List.zip_cons_cons, if_true]
      rw [zmap]; rfl

theorem mkFeat_ok {ext : Ext K} {b : Builder K} {x : List K} {cn : List String} {g : GridEntry K}
    {f : Feat K} (h : mkFeat ext b x cn g = .ok f) :
    ∃ ac xj, dropBugs ((orient ext b.costType g.acts g.pcts).1.zip (orient ext b.costType g.acts g.pcts).2)
        = some ac ∧
      b.coefs[b.varNames.idxOf g.name]? = some f.coef ∧ x[b.varNames.idxOf g.name]? = some xj ∧
      (if g.name ∈ cn ∧ 0 < xj then nullIndex (ac.map (·.1)) xj else .ok 0) = .ok f.kNull ∧
      f.name = g.name ∧ f.idx = b.varNames.idxOf g.name ∧ f.actions = ac.map (·.1) ∧
      f.costs = ac.map (·.2) := by
  unfold mkFeat at h
  dsimp only at h
  cases hdb : dropBugs ((orient ext b.costType g.acts g.pcts).1.zip (orient ext b.costType g.acts g.pcts).2) with
  | none => rw [hdb] at h; cases h
  | some ac =>
    rw [hdb] at h
    dsimp only at h
    by_cases hm : g.name ∉ b.varNames
    · rw [if_pos hm] at h; cases h
    rw [if_neg hm] at h
    cases hw : b.coefs[b.varNames.idxOf g.name]? with
    | none => rw [hw] at h; cases h
    | some w =>
      rw [hw] at h
      dsimp only at h
      cases hx : x[b.varNames.idxOf g.name]? with
      | none => rw [hx] at h; cases h
      | some xj =>
        rw [hx] at h
        dsimp only at h
        obtain ⟨k, hk, h⟩ : ∃ k, (if g.name ∈ cn ∧ 0 < xj then nullIndex (ac.map (·.1)) xj else .ok 0) = .ok k ∧
            (if (npDiff (ac.map (·.2))).isEmpty = true then Except.error Err.value else
              Except.ok { name := g.name, idx := b.varNames.idxOf g.name, coef := w,
                          actions := ac.map (·.1), costs := ac.map (·.2), kNull := k }) = .ok f := by
          by_cases hc : g.name ∈ cn ∧ 0 < xj
          · rw [if_pos hc] at h
            rw [if_pos hc]
            exact bind_ok_iff.mp h
          · rw [if_neg hc] at h
            rw [if_neg hc]
            exact bind_ok_iff.mp h
        by_cases hd : (npDiff (ac.map (·.2))).isEmpty = true
        · rw [if_pos hd] at h; cases h
        rw [if_neg hd] at h
        cases h
        exact ⟨ac, xj, rfl, rfl, rfl, hk, rfl, rfl, rfl, rfl⟩

theorem checkFeat_iff {y : Int} {cn : List String} {f : Feat K} : checkFeat y cn f = true ↔
    isClose f.coef 0 = false ∧ f.costs.headD 1 = 0 ∧ f.actions.headD 1 = 0 ∧
    (f.name ∈ cn ∨ (if 0 < y * sgn f.coef then ∀ a ∈ f.actions.tail, 0 < a
      else ∀ a ∈ f.actions.tail, a < 0)) ∧
    2 ≤ f.actions.length ∧ f.actions.length = f.costs.length ∧ f.actions.Nodup ∧ f.costs.Nodup := by
  unfold checkFeat
  by_cases hy : 0 < y * sgn f.coef
  · simp only [hy, if_true, Bool.and_eq_true, Bool.not_eq_true', decide_eq_true_eq, Bool.or_eq_true,
      List.all_eq_true]
    tauto
  · simp only [hy, if_false, Bool.and_eq_true, Bool.not_eq_true', decide_eq_true_eq, Bool.or_eq_true,
      List.all_eq_true]
    tauto

theorem buildOrder_length (V : List K) (xj : K) : (buildOrder V xj).2.length = V.length := by
  unfold buildOrder; split_ifs <;> simp

theorem mem_buildOrder {V : List K} {xj v : K} : v ∈ (buildOrder V xj).2 ↔ v ∈ V := by
  unfold buildOrder; split_ifs <;> simp

/-- The specification of all usable features of a successful build. -/
theorem buildInfo_spec {ext : Ext K} (hso : SetOrderOk ext) {b : Builder K} (hb : BuilderOK ext b)
    {x : List K} {feats : List (Feat K)} (h : b.buildInfo ext x = .ok feats) :
    (feats.map (·.name)).Nodup ∧ x.length = b.aset.names.length ∧
    (∀ f ∈ feats, ∃ e xj t T, FeatSpec ext b x f e xj t T) ∧
    ∀ (j : ℕ) (n : String) (e : Elem K) (xj : K), b.aset.names[j]? = some n → b.aset.elems[j]? = some e →
      x[j]? = some xj → (e.compatible ≠ some false ∨ n ∈ b.aset.cons.flatNames) →
      2 ≤ (e.feasX xj (decide (n ∉ b.aset.cons.flatNames))).length → ∃ f ∈ feats, f.name = n ∧ f.idx = j := by
  unfold Builder.buildInfo at h
  simp only [bind_ok_iff, pyAssert_ok_iff] at h
  obtain ⟨grid, hgrid, fs, hfs, _, hchk, h⟩ := h
  cases h
  have hwf := hb.aset.wf
  obtain ⟨g1, g2, g3⟩ := C20_feasible_grid hso hb.aset hgrid
  have hxl : x.length = b.aset.names.length := by
    unfold ActionSet.feasibleGrid at hgrid
    simp only [bind_ok_iff, pyAssert_ok_iff, decide_eq_true_eq] at hgrid
    obtain ⟨_, hx, -⟩ := hgrid
    exact hx
  have hflat : ∀ n, n ∈ b.aset.cons.flatNames ↔ ∃ k ∈ b.aset.cons.items, n ∈ k.names := by
    intro n; unfold Constraints.flatNames; simp [List.mem_flatten]
  have hdrop : ∀ n, decide (¬ ∃ k ∈ b.aset.cons.items, n ∈ k.names) = decide (n ∉ b.aset.cons.flatNames) := by
    intro n; rw [decide_eq_decide, hflat]
  -- name of a feature
  have hname : ∀ (g : GridEntry K) (f : Feat K), mkFeat ext b x b.aset.cons.flatNames g = .ok f →
      f.name = g.name ∧ f.idx = b.varNames.idxOf g.name := by
    intro g f hg
    obtain ⟨_, _, -, -, -, -, h1, h2, -⟩ := mkFeat_ok hg
    exact ⟨h1, h2⟩
  have hnames : feats.map (·.name) = (grid.filter fun g => decide (2 ≤ g.acts.length)).map (·.name) :=
    Forall2_map_eq (f := fun g : GridEntry K => g.name) (g := fun f : Feat K => f.name)
      (mapM_ok_iff.mp hfs) fun g f hgf => (hname g f hgf).1
  refine ⟨?_, hxl, ?_, ?_⟩
  · rw [hnames]
    exact g1.sublist (List.filter_sublist.map _)
  · intro f hf
    have hcf := List.all_eq_true.mp hchk f hf
    obtain ⟨g, hg, hgf⟩ := mapM_ok_mem hfs hf
    rw [List.mem_filter, decide_eq_true_iff] at hg
    obtain ⟨hg, hg2⟩ := hg
    obtain ⟨hfn, hfi⟩ := hname g f hgf
    have hgn := g2 g hg
    -- the column
    set j := b.aset.names.idxOf g.name with hj
    have hjn : b.aset.names[j]? = some g.name := List.getElem?_idxOf hgn
    have hjlt : j < b.aset.names.length := List.idxOf_lt_length_iff.mpr hgn
    have hje : ∃ e, b.aset.elems[j]? = some e :=
      ⟨_, List.getElem?_eq_getElem (by rw [hwf.length]; exact hjlt)⟩
    have hjx : ∃ xj, x[j]? = some xj := ⟨_, List.getElem?_eq_getElem (by rw [hxl]; exact hjlt)⟩
    obtain ⟨e, he⟩ := hje
    obtain ⟨xj, hxj⟩ := hjx
    obtain ⟨h1, h2⟩ := g3 j g.name e xj hjn he hxj
    obtain ⟨hacts, hpcts⟩ := h2 g hg rfl
    rw [hdrop] at hacts hpcts
    have hus := h1.mp ⟨g, hg, rfl⟩
    rw [← hflat] at hus
    -- percentiles
    unfold Elem.feasiblePercentiles at hpcts
    obtain ⟨t, ht, hpcts⟩ := bind_ok_iff.mp hpcts
    have hpc := Except.ok.inj hpcts
    have hac := feasibleValues_ok hacts
    simp only [if_true] at hac
    set V := e.feasX xj (decide (g.name ∉ b.aset.cons.flatNames)) with hV
    have hVl : 2 ≤ V.length := by rw [hac] at hg2; simpa using hg2
    -- unfold mkFeat
    obtain ⟨ac, xj', hdb, hw, hxj', hkn, -, -, hfa, hfc⟩ := mkFeat_ok hgf
    rw [hac, ← hpc] at hdb
    rw [hb.names, ← hj] at hw hxj'
    rw [hxj] at hxj'
    cases hxj'
    -- orientation
    have hBl := buildOrder_length V xj
    obtain ⟨hd, T, hT⟩ : ∃ hd T, (buildOrder V xj).2 = hd :: T := by
      cases hB : (buildOrder V xj).2 with
      | nil => rw [hB] at hBl; simp at hBl; omega
      | cons a t => exact ⟨a, t, rfl⟩
    have hVne : V ≠ [] := by intro h0; rw [h0] at hVl; simp at hVl
    rw [orient_zip ext b.costType t.eval V xj hVne hT, hT] at hdb
    have hchk' := checkFeat_iff.mp hcf
    obtain ⟨-, hc0, ha0, -, -, -, -, -⟩ := hchk'
    rw [hfa] at ha0
    rw [hfc] at hc0
    obtain ⟨c, tl, e1, e2⟩ := dropBugs_head hdb ha0
    rw [List.map_cons, List.cons.injEq, Prod.mk.injEq] at e1
    obtain ⟨⟨e1a, e1c⟩, e1t⟩ := e1
    have hhd : hd = xj := by linarith
    subst hhd
    rw [e2] at hc0
    simp only [List.map_cons, List.headD_cons] at hc0
    subst hc0
    have hfil : (tl.filter fun q => !isBug q.1 q.2)
        = (T.filter fun v => !isBug (v - hd) (stepCost ext b.costType t.eval hd (buildOrder V hd).1 v)).map
          fun v => (v - hd, stepCost ext b.costType t.eval hd (buildOrder V hd).1 v) := by
      rw [← e1t, List.filter_map]
      rfl
    rw [hfil] at e2
    have hfn' : f.idx = j := by rw [hfi, hb.names]
    refine ⟨e, hd, t, T, ?_⟩
    have hV' : e.feasX hd (decide (f.name ∉ b.aset.cons.flatNames)) = V := by rw [hfn]
    refine ⟨?_, ?_, ?_, ?_, ht, ?_, ?_, ?_, ?_, ?_, hcf, ?_⟩
    · rw [hfn', hfn]; exact hjn
    · rw [hfn']; exact he
    · rw [hfn']; exact hxj
    · rw [hfn']; exact hw
    · rw [hfn]; exact hus
    · rw [hV']; exact hVl
    · rw [hV']; exact hT
    · rw [hV', hfa, e2]; simp [Function.comp_def]
    · rw [hV', hfc, e2]; simp [Function.comp_def]
    · rw [hfn]
      constructor
      · intro hc
        rw [if_pos hc] at hkn
        unfold nullIndex at hkn
        split_ifs at hkn with hin
        have := Except.ok.inj hkn
        rw [hfa, ← this]
        exact List.getElem?_idxOf hin
      · intro hnc
        rw [if_neg hnc] at hkn
        exact (Except.ok.inj hkn).symm
  · intro j n e xj hjn he hxj hus hlen
    obtain ⟨h1, h2⟩ := g3 j n e xj hjn he hxj
    rw [← hflat] at h1
    obtain ⟨g, hg, rfl⟩ := h1.mpr hus
    obtain ⟨hacts, -⟩ := h2 g hg rfl
    rw [hdrop] at hacts
    have hac := feasibleValues_ok hacts
    simp only [if_true] at hac
    have hg2 : 2 ≤ g.acts.length := by rw [hac]; simpa using hlen
    obtain ⟨f, hf, hgf⟩ := mapM_ok_mem' hfs (List.mem_filter.mpr ⟨hg, decide_eq_true hg2⟩)
    obtain ⟨a1, a2⟩ := hname g f hgf
    refine ⟨f, hf, a1, ?_⟩
    rw [a2, hb.names]
    obtain ⟨hlt, hn⟩ := List.getElem?_eq_some_iff.mp hjn
    rw [← hn]; exact hwf.distinct.idxOf_getElem j hlt

/-- A successful build yields well-formed features. -/
theorem buildInfo_ok {ext : Ext K} (hso : SetOrderOk ext) {b : Builder K} (hb : BuilderOK ext b)
    {x : List K} {feats : List (Feat K)} (h : b.buildInfo ext x = .ok feats) :
    FeatsOK b.coefs.length feats := by
  obtain ⟨h1, h2, h3, -⟩ := buildInfo_spec hso hb h
  have hget : ∀ (l : List K), l.headD 1 = 0 → l.getD 0 1 = 0 := by
    intro l hl; cases l <;> simpa using hl
  refine ⟨?_, ?_, ?_, ?_, ?_, ?_, ?_, ?_, ?_, ?_⟩
  · -- distinct columns, since names are distinct
    have key : ∀ f ∈ feats, ∀ g ∈ feats, f.idx = g.idx → f.name = g.name := by
      intro f hf g hg hfg
      obtain ⟨_, _, _, _, sf⟩ := h3 f hf
      obtain ⟨_, _, _, _, sg⟩ := h3 g hg
      have a := sf.name; have b := sg.name
      rw [hfg, b] at a
      exact (Option.some.inj a).symm
    have : ∀ (l : List (Feat K)), (∀ f ∈ l, f ∈ feats) → (l.map (·.name)).Nodup → (l.map (·.idx)).Nodup := by
      intro l
      induction l with
      | nil => simp
      | cons f l ih =>
        intro hm hn
        rw [List.map_cons, List.nodup_cons] at hn ⊢
        refine ⟨fun hin => hn.1 ?_, ih (fun g hg => hm g (List.mem_cons_of_mem _ hg)) hn.2⟩
        obtain ⟨g, hg, hgi⟩ := List.mem_map.mp hin
        rw [← key g (hm g (List.mem_cons_of_mem _ hg)) f (hm f List.mem_cons_self) hgi]
        exact List.mem_map_of_mem hg
    exact this feats (fun _ h => h) h1
  · intro f hf
    obtain ⟨_, _, _, _, s⟩ := h3 f hf
    exact (List.getElem?_eq_some_iff.mp s.coef).1
  · intro f hf
    obtain ⟨_, _, _, _, s⟩ := h3 f hf
    exact (checkFeat_iff.mp s.check).2.2.2.2.1
  · intro f hf
    obtain ⟨_, _, _, _, s⟩ := h3 f hf
    exact (checkFeat_iff.mp s.check).2.2.2.2.2.1
  · intro f hf
    obtain ⟨_, _, _, _, s⟩ := h3 f hf
    exact hget _ (checkFeat_iff.mp s.check).2.2.1
  · intro f hf
    obtain ⟨_, _, _, _, s⟩ := h3 f hf
    exact hget _ (checkFeat_iff.mp s.check).2.1
  · intro f hf
    obtain ⟨_, _, _, _, s⟩ := h3 f hf
    exact (checkFeat_iff.mp s.check).2.2.2.2.2.2.1
  · intro f hf
    obtain ⟨_, _, _, _, s⟩ := h3 f hf
    exact (checkFeat_iff.mp s.check).2.2.2.2.2.2.2
  · intro f hf k hk hlt
    obtain ⟨e, xj, t, T, s⟩ := h3 f hf
    have hmem : f.costs.getD k 0 ∈ f.costs.tail := by
      rw [List.getD_eq_getElem _ _ hlt]
      obtain ⟨k, rfl⟩ : ∃ k', k = k' + 1 := ⟨k - 1, by omega⟩
      rw [List.mem_iff_getElem]
      exact ⟨k, by rw [List.length_tail]; omega, by rw [List.getElem_tail]⟩
    rw [s.costs, List.tail_cons, List.mem_map] at hmem
    obtain ⟨v, hv, hve⟩ := hmem
    rw [List.mem_filter] at hv
    have := hv.2
    rw [s.costs, ← hve]
    simp only [isBug, Bool.not_eq_true', Bool.or_eq_false_iff, decide_eq_false_iff_not, not_le] at this
    exact this.1
  · intro f hf
    obtain ⟨e, xj, t, T, s⟩ := h3 f hf
    by_cases hc : f.name ∈ b.aset.cons.flatNames ∧ 0 < xj
    · exact (List.getElem?_eq_some_iff.mp (s.null.1 hc)).1
    · rw [s.null.2 hc]
      have := (checkFeat_iff.mp s.check).2.2.2.2.1
      omega

end Recourse
