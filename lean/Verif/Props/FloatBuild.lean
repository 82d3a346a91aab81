import Verif.Model.FloatBuild
import Verif.Props.FloatScore
import Verif.Props.Tolerance

/-!
# C105: answers in floating point arithmetic
-/

set_option linter.unusedSectionVars false

namespace Recourse

variable {K : Type} [Field K] [LinearOrder K] [IsStrictOrderedRing K] [FloorRing K]

variable {ext : Ext K} {o : Oracle K} {b0 b1 b b' : Builder K} {x : List K} {i : Info K} {r : Rounding K}

/-! ## Specification -/

/-- `a` is close to an allowed action: its score misses the desired side by at most `ε`, and it is within `ρ` of an action `a'` that is
permitted and changes between `lo` and `hi` features. -/
structure NearAllowed (ε ρ : K) (A : ActionSet K) (w : List K) (t : K) (x a a' : List K) (lo hi : ℕ) : Prop where
  score : ReachesScoreUpTo ε A.yDesired w t x a
  near : Near ρ a a'
  permitted : PermittedAction A x a'
  min : lo ≤ numChanged a'
  max : numChanged a' ≤ hi

/-- What is assumed of a builder: it belongs to its action set, whose features have any increasing grids (integral for integer
features), however they were computed. -/
structure AnyGrids (b : Builder K) : Prop where
  columns : b.aset.Columns
  grids : ∀ e ∈ b.aset.elems, e.GridOk
  names : b.varNames = b.aset.names
  coefs : b.coefs.length = b.aset.names.length
  cons : ∀ k ∈ b.aset.cons.items, k.WF b.aset.names

theorem AnyGrids.of_ok (hb : BuilderOK ext b) : AnyGrids b :=
  ⟨hb.aset.wf.columns, fun e he => (hb.aset.wf.elems e he).inv.2, hb.names, hb.coefs, hb.aset.wf.cons⟩

/-! ## No rounding -/

theorem mkFeatFl_exact (ext : Ext K) (b : Builder K) (x : List K) (cn : List String) (g : GridEntry K) :
    mkFeatFl .exact ext b x cn g = mkFeat ext b x cn g := by
  unfold mkFeatFl mkFeat
  have h1 : ∀ a p, orientFl .exact ext b.costType a p = orient ext b.costType a p := fun _ _ => rfl
  have h2 : g.acts.map (Rounding.exact : Rounding K).fl = g.acts := List.map_id _
  rw [h2, h1]
  rfl

/-- **C105**, link to the other properties: without rounding, assigning `x` does what all other properties speak about. -/
theorem C105_exact (ext : Ext K) (b : Builder K) (x : List K) {d : K} (hd : FlDot .exact b.coefs x d) :
    b.setXFl .exact ext d x = b.setX ext x := by
  have h1 : ∀ c : Builder K, c.buildInfoFl .exact ext x = c.buildInfo ext x := by
    intro c
    unfold Builder.buildInfoFl Builder.buildInfo
    rw [show mkFeatFl (.exact : Rounding K) ext c x = mkFeat ext c x from
      funext fun cn => funext fun g => mkFeatFl_exact ext c x cn g]
  have h2 : d = dot b.coefs x := by
    have := hd.error
    unfold dotError at this
    simp only [Rounding.exact, add_zero, one_pow, sub_self, zero_mul] at this
    exact sub_eq_zero.mp (abs_nonpos_iff.mp this)
  unfold Builder.setXFl Builder.setX
  dsimp only
  rw [h1, h2]
  rfl

/-- Rounding does not hide whether a feature of a subset limit becomes 0: positive values of listed features are negated without error, and the
permitted values other than 0 are large enough not to vanish in the sum with them. -/
def KnowsZero (r : Rounding K) (A : ActionSet K) (x : List K) : Prop :=
  ∀ (j : ℕ) (n : String) (e : Elem K) (xj : K), A.names[j]? = some n → Listed A n → A.elems[j]? = some e → x[j]? = some xj → 0 < xj →
    r.fl (-xj) = -xj ∧ ∀ v, Permitted e xj v → v ≠ 0 → r.u * |v - xj| < |v|

/-! ## The features of a build -/

theorem fl_eq_zero (hu : r.u < 1) {z : K} : r.fl z = 0 ↔ z = 0 := by
  rw [← sgn_eq_zero, sgn_fl hu, sgn_eq_zero]

theorem mkFeatFl_ok {cn : List String} {g : GridEntry K} {f : Feat K} (h : mkFeatFl r ext b x cn g = .ok f) :
    ∃ ac xj, dropBugs ((orientFl r ext b.costType (g.acts.map r.fl) g.pcts).1.zip
          (orientFl r ext b.costType (g.acts.map r.fl) g.pcts).2) = some ac ∧
      b.coefs[b.varNames.idxOf g.name]? = some f.coef ∧ x[b.varNames.idxOf g.name]? = some xj ∧
      (if g.name ∈ cn ∧ 0 < xj then nullIndex (ac.map (·.1)) xj else .ok 0) = .ok f.kNull ∧
      f.name = g.name ∧ f.idx = b.varNames.idxOf g.name ∧ f.actions = ac.map (·.1) ∧
      f.costs = ac.map (·.2) := by
  unfold mkFeatFl at h
  dsimp only at h
  cases hdb : dropBugs ((orientFl r ext b.costType (g.acts.map r.fl) g.pcts).1.zip
      (orientFl r ext b.costType (g.acts.map r.fl) g.pcts).2) with
  | none => rw [hdb] at h; cases h
  | some ac =>
    rw [hdb] at h
    dsimp only at h
    by_cases hm : g.name ∉ b.varNames
    · rw [if_pos hm] at h; cases h
    rw [if_neg hm] at h
    cases hw : b.coefs[b.varNames.idxOf g.name]? with
    | none => rw [hw] at h; cases h
    | some w =>
      rw [hw] at h
      dsimp only at h
      cases hx : x[b.varNames.idxOf g.name]? with
      | none => rw [hx] at h; cases h
      | some xj =>
        rw [hx] at h
        dsimp only at h
        obtain ⟨k, hk, h⟩ : ∃ k, (if g.name ∈ cn ∧ 0 < xj then nullIndex (ac.map (·.1)) xj else .ok 0) = .ok k ∧
            (if (npDiff (ac.map (·.2))).isEmpty = true then Except.error Err.value else
              Except.ok { name := g.name, idx := b.varNames.idxOf g.name, coef := w,
                          actions := ac.map (·.1), costs := ac.map (·.2), kNull := k }) = .ok f := by
          by_cases hc : g.name ∈ cn ∧ 0 < xj
          · rw [if_pos hc] at h
            rw [if_pos hc]
            exact bind_ok_iff.mp h
          · rw [if_neg hc] at h
            rw [if_neg hc]
            exact bind_ok_iff.mp h
        by_cases hd : (npDiff (ac.map (·.2))).isEmpty = true
        · rw [if_pos hd] at h; cases h
        rw [if_neg hd] at h
        cases h
        exact ⟨ac, xj, rfl, rfl, rfl, hk, rfl, rfl, rfl, rfl⟩

/-- The rounded cost of going up from percentile score `p` to `q`. -/
def upFl (r : Rounding K) (ext : Ext K) (ct : CostType) (p q : K) : K :=
  if ct = .loc then r.fl (ext.log (r.fl (r.fl (1 - p) / r.fl (1 - q)))) else r.fl (q - p)

/-- The rounded cost of going down from percentile score `p` to `q`. -/
def dnFl (r : Rounding K) (ext : Ext K) (ct : CostType) (p q : K) : K :=
  if ct = .loc then r.fl (ext.log (r.fl (r.fl (1 - q) / r.fl (1 - p)))) else r.fl (p - q)

/-- The offered actions and their costs, in the order of the program. -/
theorem orientFl_zip (r : Rounding K) (ext : Ext K) (ct : CostType) (V : List K) (a pc : K → K) :
    (orientFl r ext ct (V.map a) (V.map pc)).1.zip (orientFl r ext ct (V.map a) (V.map pc)).2
      = V.map (fun v => (a v, upFl r ext ct (pc (V.headD 0)) (pc v))) ∨
    (orientFl r ext ct (V.map a) (V.map pc)).1.zip (orientFl r ext ct (V.map a) (V.map pc)).2
      = V.reverse.map (fun v => (a v, dnFl r ext ct (pc (V.reverse.headD 0)) (pc v))) := by
  have key : ∀ W : List K, W ≠ [] → (W.map pc).headD 0 = pc (W.headD 0) := by
    intro W hW
    cases W with
    | nil => exact absurd rfl hW
    | cons v W => rfl
  unfold orientFl
  by_cases h : isClose ((V.map a).getLastD 0) 0 = true
  · right
    rw [if_pos h]
    unfold costDnFl dnFl
    dsimp only
    by_cases hV : V = []
    · rw [hV]; rfl
    · rw [← List.map_reverse, ← List.map_reverse, key _ (by simpa using hV)]
      by_cases hc : ct = .loc
      · simp only [if_pos hc]
        rw [List.map_map, List.zip_map']; rfl
      · simp only [if_neg hc]
        rw [List.map_map, List.zip_map']; rfl
  · left
    rw [if_neg h]
    unfold costUpFl upFl
    dsimp only
    by_cases hV : V = []
    · rw [hV]; rfl
    · rw [key _ hV]
      by_cases hc : ct = .loc
      · simp only [if_pos hc]
        rw [List.map_map, List.zip_map']; rfl
      · simp only [if_neg hc]
        rw [List.map_map, List.zip_map']; rfl

/-- What a build guarantees about a usable feature. -/
structure FeatSpecFl (ext : Ext K) (r : Rounding K) (b : Builder K) (x : List K) (f : Feat K) (e : Elem K) (xj : K) : Prop where
  name : b.aset.names[f.idx]? = some f.name
  elem : b.aset.elems[f.idx]? = some e
  val : x[f.idx]? = some xj
  coef : b.coefs[f.idx]? = some f.coef
  offered : ∀ a ∈ f.actions, ∃ v, Permitted e xj v ∧ a = r.fl (v - xj)
  length : f.actions.length ≤ e.grid.vals.length + 1
  check : checkFeat b.aset.yDesired b.aset.cons.flatNames f = true
  cpos : ∀ c ∈ f.costs.tail, 0 < c
  null : f.kNull < f.actions.length
  nullAt : (f.name ∈ b.aset.cons.flatNames ∧ 0 < xj → f.actions[f.kNull]? = some (-xj)) ∧
    (¬ (f.name ∈ b.aset.cons.flatNames ∧ 0 < xj) → f.kNull = 0)
  fits : e.actionable = true → FitsGrid e xj
  table : ∀ v, ∃ p, e.percentile ext v = .ok p
  cover : ∀ v p q, v ∈ e.feasX xj (decide (f.name ∉ b.aset.cons.flatNames)) → v ≠ xj → isClose (r.fl (v - xj)) 0 = false →
    e.percentile ext xj = .ok p → e.percentile ext v = .ok q → (xj < v → 0 < upFl r ext b.costType p q) →
    (v < xj → 0 < dnFl r ext b.costType p q) → r.fl (v - xj) ∈ f.actions

theorem orientFl_fst (r : Rounding K) (ext : Ext K) (ct : CostType) (a p : List K) :
    (∀ v, v ∈ (orientFl r ext ct a p).1 ↔ v ∈ a) ∧ (orientFl r ext ct a p).1.length = a.length := by
  unfold orientFl
  by_cases h : isClose (a.getLastD 0) 0 = true
  · rw [if_pos h]; simp
  · rw [if_neg h]; simp

theorem buildInfoFl_spec (hso : SetOrderOk ext) (hu : r.u < 1) (hb : AnyGrids b) {feats : List (Feat K)}
    (h : b.buildInfoFl r ext x = .ok feats) :
    (feats.map (·.name)).Nodup ∧ x.length = b.aset.names.length ∧ (∀ f ∈ feats, ∃ e xj, FeatSpecFl ext r b x f e xj) ∧
    ∀ (j : ℕ) (n : String) (e : Elem K) (xj : K), b.aset.names[j]? = some n → b.aset.elems[j]? = some e →
      x[j]? = some xj → (e.compatible ≠ some false ∨ n ∈ b.aset.cons.flatNames) →
      2 ≤ (e.feasX xj (decide (n ∉ b.aset.cons.flatNames))).length → ∃ f ∈ feats, f.name = n ∧ f.idx = j := by
  unfold Builder.buildInfoFl at h
  simp only [bind_ok_iff, pyAssert_ok_iff] at h
  obtain ⟨grid, hgrid, fs, hfs, _, hchk, h⟩ := h
  cases h
  obtain ⟨g1, g2, g3⟩ := feasibleGrid_columns hso hb.columns hgrid
  have hxl : x.length = b.aset.names.length := by
    unfold ActionSet.feasibleGrid at hgrid
    simp only [bind_ok_iff, pyAssert_ok_iff, decide_eq_true_eq] at hgrid
    obtain ⟨_, hx, -⟩ := hgrid
    exact hx
  have hname : ∀ (g : GridEntry K) (f : Feat K), mkFeatFl r ext b x b.aset.cons.flatNames g = .ok f →
      f.name = g.name ∧ f.idx = b.varNames.idxOf g.name := by
    intro g f hg
    obtain ⟨_, _, -, -, -, -, h1, h2, -⟩ := mkFeatFl_ok hg
    exact ⟨h1, h2⟩
  have hnames : feats.map (·.name) = (grid.filter fun g => decide (2 ≤ g.acts.length)).map (·.name) :=
    Forall2_map_eq (f := fun g : GridEntry K => g.name) (g := fun f : Feat K => f.name)
      (mapM_ok_iff.mp hfs) fun g f hgf => (hname g f hgf).1
  have hflat : ∀ n, n ∈ b.aset.cons.flatNames ↔ ∃ k ∈ b.aset.cons.items, n ∈ k.names := by
    intro n; unfold Constraints.flatNames; simp [List.mem_flatten]
  have hdrop : ∀ n, decide (¬ ∃ k ∈ b.aset.cons.items, n ∈ k.names) = decide (n ∉ b.aset.cons.flatNames) := by
    intro n; rw [decide_eq_decide, hflat]
  refine ⟨?_, hxl, ?_, ?_⟩
  · rw [hnames]
    exact g1.sublist (List.filter_sublist.map _)
  · intro f hf
    have hcf := List.all_eq_true.mp hchk f hf
    obtain ⟨g, hg, hgf⟩ := mapM_ok_mem hfs hf
    rw [List.mem_filter, decide_eq_true_iff] at hg
    obtain ⟨hg, hg2⟩ := hg
    obtain ⟨hfn, hfi⟩ := hname g f hgf
    have hgn := g2 g hg
    set j := b.aset.names.idxOf g.name with hj
    have hjn : b.aset.names[j]? = some g.name := List.getElem?_idxOf hgn
    have hjlt : j < b.aset.names.length := List.idxOf_lt_length_iff.mpr hgn
    obtain ⟨e, he⟩ : ∃ e, b.aset.elems[j]? = some e :=
      ⟨_, List.getElem?_eq_getElem (by rw [hb.columns.length]; exact hjlt)⟩
    obtain ⟨xj, hxj⟩ : ∃ xj, x[j]? = some xj := ⟨_, List.getElem?_eq_getElem (by rw [hxl]; exact hjlt)⟩
    obtain ⟨-, h2⟩ := g3 j g.name e xj hjn he hxj
    obtain ⟨hacts, hpcts⟩ := h2 g hg rfl
    rw [hdrop] at hacts hpcts
    unfold Elem.feasiblePercentiles at hpcts
    obtain ⟨t, ht, hpcts⟩ := bind_ok_iff.mp hpcts
    have hpc := Except.ok.inj hpcts
    have hac := feasibleValues_ok hacts
    simp only [if_true] at hac
    set V := e.feasX xj (decide (g.name ∉ b.aset.cons.flatNames)) with hV
    obtain ⟨ac, xj', hdb, hw, hxj', hkn, -, -, hfa, hfc⟩ := mkFeatFl_ok hgf
    rw [hb.names, ← hj] at hw hxj'
    rw [hxj] at hxj'
    cases hxj'
    obtain ⟨om, ol⟩ := orientFl_fst r ext b.costType (g.acts.map r.fl) g.pcts
    have hchk' := checkFeat_iff.mp hcf
    obtain ⟨-, hc0, ha0, -, htwo, -, -, -⟩ := hchk'
    rw [hfa] at ha0
    obtain ⟨c, tl, e1, e2⟩ := dropBugs_head hdb ha0
    -- membership
    have hmem : ∀ a ∈ f.actions, ∃ v ∈ V, a = r.fl (v - xj) := by
      intro a ha
      rw [hfa, e2] at ha
      obtain ⟨p, hp, rfl⟩ := List.mem_map.mp ha
      have hp' : p ∈ (0, c) :: tl := by
        rcases List.mem_cons.mp hp with hp | hp
        · rw [hp]; exact List.mem_cons_self
        · exact List.mem_cons_of_mem _ (List.mem_filter.mp hp).1
      rw [← e1] at hp'
      have h3 := (om p.1).mp (List.of_mem_zip (a := p.1) (b := p.2) hp').1
      rw [hac, List.map_map] at h3
      obtain ⟨v, hv, hve⟩ := List.mem_map.mp h3
      exact ⟨v, hv, hve.symm⟩
    have hx : xj ∈ V := by
      obtain ⟨v, hv, hve⟩ := hmem 0 (by rw [hfa, e2]; simp)
      have := (fl_eq_zero hu).mp hve.symm
      rwa [sub_eq_zero.mp this] at hv
    have hfit : e.actionable = true → FitsGrid e xj := by
      intro hact hi
      by_contra hn
      exact not_fits_mem (hb.grids e (List.mem_of_getElem? he)) hact hi hn (mem_feasX_base.mp hx).1
    have hfn' : f.idx = j := by rw [hfi, hb.names]
    refine ⟨e, xj, ?_, ?_, ?_, ?_, ?_, ?_, hcf, ?_, ?_, ?_, hfit,
      fun v => ⟨t.eval v, by unfold Elem.percentile; rw [ht]; rfl⟩, ?_⟩
    · rw [hfn', hfn]; exact hjn
    · rw [hfn']; exact he
    · rw [hfn']; exact hxj
    · rw [hfn']; exact hw
    · intro a ha
      obtain ⟨v, hv, hve⟩ := hmem a ha
      exact ⟨v, ((mem_feasX hfit).mp hv).1, hve⟩
    · have h1 : f.actions.length ≤ ((0, c) :: tl).length := by
        rw [hfa, e2, List.length_map, List.length_cons, List.length_cons]
        have := List.length_filter_le (fun q : K × K => !isBug q.1 q.2) tl
        omega
      rw [← e1, List.length_zip, ol, List.length_map, hac, List.length_map] at h1
      have := feasX_length e xj (decide (g.name ∉ b.aset.cons.flatNames))
      rw [← hV] at this
      omega
    · intro q hq
      rw [hfc, e2, List.map_cons, List.tail_cons] at hq
      obtain ⟨p, hp, rfl⟩ := List.mem_map.mp hq
      have := (List.mem_filter.mp hp).2
      simp only [isBug, Bool.not_eq_true', Bool.or_eq_false_iff, decide_eq_false_iff_not, not_le] at this
      exact this.1
    · by_cases hc : g.name ∈ b.aset.cons.flatNames ∧ 0 < xj
      · rw [if_pos hc] at hkn
        unfold nullIndex at hkn
        split_ifs at hkn with hin
        rw [hfa, ← Except.ok.inj hkn]
        exact List.idxOf_lt_length_iff.mpr hin
      · rw [if_neg hc] at hkn
        rw [← Except.ok.inj hkn]
        omega
    · rw [hfn]
      constructor
      · intro hc
        rw [if_pos hc] at hkn
        unfold nullIndex at hkn
        split_ifs at hkn with hin
        rw [hfa, ← Except.ok.inj hkn]
        exact List.getElem?_idxOf hin
      · intro hc
        rw [if_neg hc] at hkn
        exact (Except.ok.inj hkn).symm
    · intro v p q hv hne hcl hp hq hup hdn
      rw [hfn, ← hV] at hv
      have hpp : t.eval xj = p := by
        unfold Elem.percentile at hp
        rw [ht, ok_bind] at hp
        exact Except.ok.inj hp
      have hqq : t.eval v = q := by
        unfold Elem.percentile at hq
        rw [ht, ok_bind] at hq
        exact Except.ok.inj hq
      have hsort : V.Pairwise (· < ·) := feasX_pairwise (hb.grids e (List.mem_of_getElem? he)).sorted hfit
      have hz := orientFl_zip r ext b.costType V (fun v => r.fl (v - xj)) t.eval
      have hg1 : g.acts.map r.fl = V.map fun v => r.fl (v - xj) := by rw [hac, List.map_map]; rfl
      rw [hg1, ← hpc] at e1
      have fin : ∀ c', (r.fl (v - xj), c') ∈ (0, c) :: tl → 0 < c' → r.fl (v - xj) ∈ f.actions := by
        intro c' hm hc'
        rw [hfa, e2]
        refine List.mem_map.mpr ⟨(r.fl (v - xj), c'), ?_, rfl⟩
        have hbug : isBug (r.fl (v - xj)) c' = false := by
          unfold isBug; rw [hcl, decide_eq_false (not_le.mpr hc')]; rfl
        rcases List.mem_cons.mp hm with hm | hm
        · exfalso
          have := (Prod.mk.inj hm).1
          rw [fl_eq_zero hu, sub_eq_zero] at this
          exact hne this
        · exact List.mem_cons_of_mem _ (List.mem_filter.mpr ⟨hm, by rw [hbug]; rfl⟩)
      have hhead : ∀ (W : List K) (F : K → K), (0, c) :: tl = W.map (fun v => (r.fl (v - xj), F v)) → ∃ T, W = xj :: T := by
        intro W F hW
        cases W with
        | nil => cases hW
        | cons w T =>
          rw [List.map_cons, List.cons.injEq, Prod.mk.injEq] at hW
          have := (fl_eq_zero hu).mp hW.1.1.symm
          exact ⟨T, by rw [sub_eq_zero.mp this]⟩
      rcases hz with hz | hz
      · rw [e1] at hz
        obtain ⟨T, hT⟩ := hhead V _ hz
        have hlt : xj < v := by
          rw [hT] at hv hsort
          rcases List.mem_cons.mp hv with h | h
          · exact absurd h hne
          · exact (List.pairwise_cons.mp hsort).1 v h
        refine fin (upFl r ext b.costType p q) ?_ (hup hlt)
        rw [hz]
        refine List.mem_map.mpr ⟨v, hv, ?_⟩
        rw [hT, List.headD_cons, hpp, hqq]
      · rw [e1] at hz
        obtain ⟨T, hT⟩ := hhead V.reverse _ hz
        have hlt : v < xj := by
          have hs' : V.reverse.Pairwise (fun a c => c < a) := List.pairwise_reverse.mpr hsort
          have hv' : v ∈ V.reverse := List.mem_reverse.mpr hv
          rw [hT] at hs' hv'
          rcases List.mem_cons.mp hv' with h | h
          · exact absurd h hne
          · exact (List.pairwise_cons.mp hs').1 v h
        refine fin (dnFl r ext b.costType p q) ?_ (hdn hlt)
        rw [hz]
        refine List.mem_map.mpr ⟨v, List.mem_reverse.mpr hv, ?_⟩
        rw [hT, List.headD_cons, hpp, hqq]
  · intro j n e xj hjn he hxj hus hlen
    obtain ⟨h1, h2⟩ := g3 j n e xj hjn he hxj
    rw [← hflat] at h1
    obtain ⟨g, hg, rfl⟩ := h1.mpr hus
    obtain ⟨hacts, -⟩ := h2 g hg rfl
    rw [hdrop] at hacts
    have hac := feasibleValues_ok hacts
    simp only [if_true] at hac
    have hg2 : 2 ≤ g.acts.length := by rw [hac]; simpa using hlen
    obtain ⟨f, hf, hgf⟩ := mapM_ok_mem' hfs (List.mem_filter.mpr ⟨hg, decide_eq_true hg2⟩)
    obtain ⟨a1, a2⟩ := hname g f hgf
    refine ⟨f, hf, a1, ?_⟩
    rw [a2, hb.names]
    obtain ⟨hlt, hn⟩ := List.getElem?_eq_some_iff.mp hjn
    rw [← hn]; exact hb.columns.distinct.idxOf_getElem j hlt

theorem buildInfoFl_ok (hso : SetOrderOk ext) (hu : r.u < 1) (hb : AnyGrids b) {feats : List (Feat K)}
    (h : b.buildInfoFl r ext x = .ok feats) : FeatsOK b.coefs.length feats := by
  obtain ⟨h1, h2, h3, -⟩ := buildInfoFl_spec hso hu hb h
  have hget : ∀ (l : List K), l.headD 1 = 0 → l.getD 0 1 = 0 := by
    intro l hl; cases l <;> simpa using hl
  have hchk : ∀ f ∈ feats, checkFeat b.aset.yDesired b.aset.cons.flatNames f = true := by
    intro f hf
    obtain ⟨_, _, s⟩ := h3 f hf
    exact s.check
  refine ⟨?_, ?_, fun f hf => (checkFeat_iff.mp (hchk f hf)).2.2.2.2.1, fun f hf => (checkFeat_iff.mp (hchk f hf)).2.2.2.2.2.1,
    fun f hf => hget _ (checkFeat_iff.mp (hchk f hf)).2.2.1, fun f hf => hget _ (checkFeat_iff.mp (hchk f hf)).2.1,
    fun f hf => (checkFeat_iff.mp (hchk f hf)).2.2.2.2.2.2.1, fun f hf => (checkFeat_iff.mp (hchk f hf)).2.2.2.2.2.2.2, ?_, ?_⟩
  · have key : ∀ f ∈ feats, ∀ g ∈ feats, f.idx = g.idx → f.name = g.name := by
      intro f hf g hg hfg
      obtain ⟨_, _, sf⟩ := h3 f hf
      obtain ⟨_, _, sg⟩ := h3 g hg
      have a := sf.name; have b := sg.name
      rw [hfg, b] at a
      exact (Option.some.inj a).symm
    have : ∀ (l : List (Feat K)), (∀ f ∈ l, f ∈ feats) → (l.map (·.name)).Nodup → (l.map (·.idx)).Nodup := by
      intro l
      induction l with
      | nil => simp
      | cons f l ih =>
        intro hm hn
        rw [List.map_cons, List.nodup_cons] at hn ⊢
        refine ⟨fun hin => hn.1 ?_, ih (fun g hg => hm g (List.mem_cons_of_mem _ hg)) hn.2⟩
        obtain ⟨g, hg, hgi⟩ := List.mem_map.mp hin
        rw [← key g (hm g (List.mem_cons_of_mem _ hg)) f (hm f List.mem_cons_self) hgi]
        exact List.mem_map_of_mem hg
    exact this feats (fun _ h => h) h1
  · intro f hf
    obtain ⟨_, _, s⟩ := h3 f hf
    exact (List.getElem?_eq_some_iff.mp s.coef).1
  · intro f hf k hk hlt
    obtain ⟨e, xj, s⟩ := h3 f hf
    apply s.cpos
    rw [List.getD_eq_getElem _ _ hlt]
    obtain ⟨k, rfl⟩ : ∃ k', k = k' + 1 := ⟨k - 1, by omega⟩
    rw [List.mem_iff_getElem]
    exact ⟨k, by rw [List.length_tail]; omega, by rw [List.getElem_tail]⟩
  · intro f hf
    obtain ⟨e, xj, s⟩ := h3 f hf
    exact s.null

theorem setXFl_ok {d : K} (h : b.setXFl r ext d x = (b1, .ok ())) :
    ∃ feats m, x.length = b.coefs.length ∧ b.buildInfoFl r ext x = .ok feats ∧
      buildMip b.backend { b.buildArgs x feats with score := b.scoreFl r d } = .ok m ∧
      b1 = { b with x := some x, aset := b.aset.touch ext true, mip := some m, feats := feats, sol := .unknown } := by
  unfold Builder.setXFl at h
  by_cases hl : x.length ≠ b.coefs.length
  · rw [if_pos hl] at h; cases h
  · rw [if_neg hl] at h
    dsimp only at h
    have hbi : ({ b with x := some x } : Builder K).buildInfoFl r ext x = b.buildInfoFl r ext x := rfl
    rw [hbi] at h
    cases hb : b.buildInfoFl r ext x with
    | error e => rw [hb] at h; cases h
    | ok feats =>
      rw [hb] at h
      dsimp only at h
      cases hm : buildMip b.backend { b.buildArgs x feats with score := b.scoreFl r d } with
      | error e =>
        have : buildMip b.backend { ({ b with x := some x, aset := b.aset.touch ext true } : Builder K).buildArgs x feats with
            score := ({ b with x := some x, aset := b.aset.touch ext true } : Builder K).scoreFl r d } = .error e := hm
        rw [this] at h; cases h
      | ok m =>
        have : buildMip b.backend { ({ b with x := some x, aset := b.aset.touch ext true } : Builder K).buildArgs x feats with
            score := ({ b with x := some x, aset := b.aset.touch ext true } : Builder K).scoreFl r d } = .ok m := hm
        rw [this] at h
        cases h
        exact ⟨feats, m, not_not.mp hl, rfl, hm, rfl⟩

/-- If the first `m` columns can be used, the usable features start with them. -/
theorem featsFl_prefix (hso : SetOrderOk ext) (hu : r.u < 1) (hb : AnyGrids b) {feats : List (Feat K)} {m : ℕ}
    (h : b.buildInfoFl r ext x = .ok feats) (hus : ∀ j < m, UsableColumn b.aset x j) :
    b.aset.names.take m <+: feats.map (·.name) := by
  obtain ⟨h1, hxl, hspec, hall⟩ := buildInfoFl_spec hso hu hb h
  have hcol : ∀ (j : ℕ) (e : Elem K), j < m → b.aset.elems[j]? = some e → ∃ n xj, b.aset.names[j]? = some n ∧
      x[j]? = some xj := by
    intro j e _ he
    have hjlt : j < b.aset.names.length := by rw [← hb.columns.length]; exact (List.getElem?_eq_some_iff.mp he).1
    exact ⟨_, _, List.getElem?_eq_getElem hjlt, List.getElem?_eq_getElem (by rw [hxl]; exact hjlt)⟩
  unfold Builder.buildInfoFl at h
  simp only [bind_ok_iff, pyAssert_ok_iff] at h
  obtain ⟨grid, hgrid, fs, hfs, _, hchk, h⟩ := h
  cases h
  have hnames : feats.map (·.name) = (grid.filter fun g => decide (2 ≤ g.acts.length)).map (·.name) :=
    Forall2_map_eq (f := fun g : GridEntry K => g.name) (g := fun f : Feat K => f.name)
      (mapM_ok_iff.mp hfs) fun g f hgf => by
        obtain ⟨_, _, -, -, -, -, h1, -⟩ := mkFeatFl_ok hgf
        exact h1
  obtain ⟨hnd, -, -⟩ := feasibleGrid_columns hso hb.columns hgrid
  refine prefix_of_sublist hnd (grid_prefix_columns hb.columns.length ?_ hgrid) ?_ ?_
  · intro j e hj he
    obtain ⟨n, xj, hn, hxj⟩ := hcol j e hj he
    exact (hus j hj n e xj hn he hxj).1
  · rw [hnames]; exact List.filter_sublist.map _
  · intro n hn
    obtain ⟨j, hj⟩ := List.mem_iff_getElem?.mp hn
    have hjm : j < m := by
      have := (List.getElem?_eq_some_iff.mp hj).1
      rw [List.length_take] at this; omega
    rw [List.getElem?_take_of_lt hjm] at hj
    have hjlt : j < b.aset.names.length := (List.getElem?_eq_some_iff.mp hj).1
    obtain ⟨e, he⟩ : ∃ e, b.aset.elems[j]? = some e :=
      ⟨_, List.getElem?_eq_getElem (by rw [hb.columns.length]; exact hjlt)⟩
    obtain ⟨xj, hxj⟩ : ∃ xj, x[j]? = some xj := ⟨_, List.getElem?_eq_getElem (by rw [hxl]; exact hjlt)⟩
    obtain ⟨hc, hfit, v, hv, hp, hd⟩ := hus j hjm n e xj hj he hxj
    have m1 : xj ∈ e.feasX xj (decide (n ∉ b.aset.cons.flatNames)) :=
      (mem_feasX fun _ => hfit).mpr ⟨Or.inl rfl, fun _ d _ => ⟨fun _ => le_rfl, fun _ => le_rfl⟩⟩
    have m2 : v ∈ e.feasX xj (decide (n ∉ b.aset.cons.flatNames)) := by
      refine (mem_feasX fun _ => hfit).mpr ⟨hp, ?_⟩
      intro hdr d hdm
      exact hd (not_listed_iff.mp (of_decide_eq_true hdr)) d hdm
    obtain ⟨f, hf, hfn, -⟩ := hall j n e xj hj he hxj (Or.inl hc) (two_le_of_mem m2 m1 hv)
    exact List.mem_map.mpr ⟨f, hf, hfn⟩

/-- For a listed feature at a nonnegative point, the nullifying position is the one that makes it zero. -/
theorem FeatSpecFl.null_iff {f : Feat K} {e : Elem K} {xj : K} (hu : r.u < 1) (h : FeatSpecFl ext r b x f e xj) {n : ℕ}
    {feats : List (Feat K)} (hok : FeatsOK n feats) (hf : f ∈ feats) (hm : Listed b.aset f.name) (hx : 0 ≤ xj)
    (hz : KnowsZero r b.aset x) {κ : ℕ → ℕ} (hκ : κ f.idx < f.actions.length) {v : K} (hv : Permitted e xj v)
    (ha : f.act κ = r.fl (v - xj)) : κ f.idx ≠ f.kNull ↔ v ≠ 0 := by
  rw [not_iff_not]
  have hnd := hok.nodupA f hf
  have hact : f.actions[κ f.idx] = r.fl (v - xj) := by
    rw [← ha]; unfold Feat.act; rw [List.getD_eq_getElem _ _ hκ]
  rcases hx.lt_or_eq with hpos | h0
  · obtain ⟨hl, hn⟩ := List.getElem?_eq_some_iff.mp (h.nullAt.1 ⟨listed_iff.mpr hm, hpos⟩)
    obtain ⟨z1, z2⟩ := hz f.idx f.name e xj h.name hm h.elem h.val hpos
    constructor
    · intro he
      have h1 : r.fl (v - xj) = -xj := by
        rw [← hact, ← hn]; congr 1
      by_contra hv0
      have h2 := r.near (v - xj)
      rw [h1] at h2
      have h3 : |-xj - (v - xj)| = |v| := by
        rw [show -xj - (v - xj) = -v by ring, abs_neg]
      rw [h3] at h2
      exact absurd (z2 v hv hv0) (not_lt.mpr h2)
    · intro hv0
      rw [hv0, zero_sub, z1] at hact
      exact (hnd.getElem_inj_iff).mp (hact.trans hn.symm)
  · have hk : f.kNull = 0 := h.nullAt.2 (by rintro ⟨-, hp⟩; exact absurd h0 hp.ne)
    rw [hk]
    have h00 : f.actions.getD 0 1 = 0 := hok.a0 f hf
    have h2 := hok.two f hf
    rw [List.getD_eq_getElem _ _ (by omega)] at h00
    constructor
    · intro he
      have h1 : f.actions[κ f.idx] = f.actions[0] := by congr 1
      rw [hact, h00, fl_eq_zero hu, ← h0, sub_zero] at h1
      exact h1
    · intro hv0
      rw [hv0, ← h0, sub_zero, (fl_eq_zero hu).mpr rfl] at hact
      exact (hnd.getElem_inj_iff).mp (hact.trans h00.symm)

/-- If subset limits apply, the program's limits are those of the specification: for the values `V f` whose rounded changes the choice makes. -/
theorem limitsFl_iff (hso : SetOrderOk ext) (hu : r.u < 1) (hb : AnyGrids b) {feats : List (Feat K)}
    (h : b.buildInfoFl r ext x = .ok feats) (hla : LimitsApply b.aset x) (hz : KnowsZero r b.aset x) {κ : ℕ → ℕ}
    (hκ : Choice feats κ) {X V : Feat K → K}
    (hE : ∀ f ∈ feats, (∃ e, FeatSpecFl ext r b x f e (X f) ∧ Permitted e (X f) (V f)) ∧ f.act κ = r.fl (V f - X f)) :
    (∀ k ∈ b.aset.cons.items, LimitOK feats κ k) ↔
      RespectsLimits b.aset x (valVec b.coefs.length feats fun f => V f - X f) := by
  have h2 := buildInfoFl_ok hso hu hb h
  unfold RespectsLimits
  refine forall₂_congr fun k hkm => ?_
  have hw := hb.cons k hkm
  have hfeat : ∀ j ∈ k.indices, ∃ f, feats[j]? = some f ∧ b.aset.names[j]? = some f.name := by
    intro j hj
    have hjn : b.aset.names[j]? ∈ k.names.map some := by
      rw [hw.position]; exact List.mem_map.mpr ⟨j, hj, rfl⟩
    obtain ⟨n, hnk, hn⟩ := List.mem_map.mp hjn
    obtain ⟨-, hus⟩ := hla j n hn.symm ⟨k, hkm, hnk⟩
    have hp := featsFl_prefix hso hu hb h (m := j + 1) (fun i hi => hus i (by omega))
    have hlt : j < b.aset.names.length := (List.getElem?_eq_some_iff.mp hn.symm).1
    have hj' : (feats.map (·.name))[j]? = b.aset.names[j]? := by
      rw [← List.getElem?_take_of_lt (Nat.lt_succ_self j) (l := b.aset.names)]
      obtain ⟨R, hR⟩ := hp
      rw [← hR, List.getElem?_append_left (by rw [List.length_take]; omega)]
    rw [← hn, List.getElem?_map] at hj'
    obtain ⟨f, hf, hfn⟩ := Option.map_eq_some_iff.mp hj'
    exact ⟨f, hf, by rw [← hn, hfn]⟩
  have hcount : ∀ fs : List (Feat K), k.indices.map (feats[·]?) = fs.map some →
      fs.countP (fun f => decide (κ f.idx ≠ f.kNull))
        = numNonzero b.aset x (valVec b.coefs.length feats fun f => V f - X f) k.names := by
    intro fs hfs
    unfold numNonzero
    have hnames : fs.map (·.name) = k.names := by
      have e1 : k.indices.map (fun j => (feats[j]?).map (·.name)) = fs.map (fun f => some f.name) := by
        have := congrArg (List.map (Option.map (fun f : Feat K => f.name))) hfs
        simpa [List.map_map, Function.comp_def] using this
      have e2 : k.indices.map (fun j => (feats[j]?).map (·.name)) = k.names.map some := by
        rw [hw.position]
        apply List.map_congr_left
        intro j hj
        obtain ⟨f, hf, hfn⟩ := hfeat j hj
        rw [hf, hfn]; rfl
      have e3 : (fs.map (·.name)).map some = k.names.map some := by
        rw [← e2, e1, List.map_map]; rfl
      exact List.map_injective_iff.mpr (Option.some_injective _) e3
    rw [← hnames, List.countP_map]
    apply List.countP_congr
    intro f hfm
    have hff : f ∈ feats := by
      have : some f ∈ k.indices.map (feats[·]?) := by rw [hfs]; exact List.mem_map.mpr ⟨f, hfm, rfl⟩
      obtain ⟨j, -, hj⟩ := List.mem_map.mp this
      exact List.mem_of_getElem? hj
    obtain ⟨⟨e, hs, hv⟩, ha⟩ := hE f hff
    have hfk : f.name ∈ k.names := by rw [← hnames]; exact List.mem_map.mpr ⟨f, hfm, rfl⟩
    have hfl : Listed b.aset f.name := ⟨k, hkm, hfk⟩
    have hni := hs.null_iff hu h2 hff hfl ((hla f.idx f.name hs.name hfl).1 _ hs.val) hz (hκ f hff) hv ha
    have hix : b.aset.names.idxOf f.name = f.idx := by
      obtain ⟨hlt, hn⟩ := List.getElem?_eq_some_iff.mp hs.name
      rw [← hn]; exact hb.columns.distinct.idxOf_getElem _ hlt
    have hact : (valVec b.coefs.length feats fun f => V f - X f)[f.idx]? = some (V f - X f) :=
      put_feat h2 (fun f => V f - X f) hff
    have hval : (vadd x (valVec b.coefs.length feats fun f => V f - X f)).getD f.idx 0 = V f := by
      unfold vadd
      rw [List.getD_eq_getElem?_getD, List.getElem?_zipWith, hs.val, hact]
      show X f + (V f - X f) = V f
      ring
    simp only [Function.comp, decide_eq_true_eq]
    rw [hix, hval]
    exact hni
  constructor
  · rintro ⟨fs, hfs, hlo, hhi⟩
    rw [hcount fs hfs] at hlo hhi
    exact ⟨hlo, hhi⟩
  · rintro ⟨hlo, hhi⟩
    have hex : ∃ fs : List (Feat K), k.indices.map (feats[·]?) = fs.map some := by
      have : ∀ js : List ℕ, (∀ j ∈ js, j ∈ k.indices) → ∃ fs : List (Feat K), js.map (feats[·]?) = fs.map some := by
        intro js
        induction js with
        | nil => intro _; exact ⟨[], rfl⟩
        | cons j js ih =>
          intro hjs
          obtain ⟨fs, hfs⟩ := ih fun i hi => hjs i (List.mem_cons_of_mem _ hi)
          obtain ⟨f, hf, -⟩ := hfeat j (hjs j List.mem_cons_self)
          exact ⟨f :: fs, by rw [List.map_cons, List.map_cons, hfs, hf]⟩
      exact this _ fun j hj => hj
    obtain ⟨fs, hfs⟩ := hex
    refine ⟨fs, hfs, ?_, ?_⟩
    · rw [hcount fs hfs]; exact hlo
    · rw [hcount fs hfs]; exact hhi

theorem numChanged_congr : ∀ (a a' : List K), a.length = a'.length → (∀ j : ℕ, a.getD j 0 = 0 ↔ a'.getD j 0 = 0) →
    numChanged a = numChanged a'
  | [], [], _, _ => rfl
  | [], _ :: _, h, _ => by simp at h
  | _ :: _, [], h, _ => by simp at h
  | p :: a, q :: a', h, hz => by
    have ih := numChanged_congr a a' (by simpa using h) (fun j => by simpa using hz (j + 1))
    have h0 : p = 0 ↔ q = 0 := by simpa using hz 0
    unfold numChanged at ih ⊢
    rw [List.countP_cons, List.countP_cons, ih]
    congr 1
    by_cases hp : p = 0
    · rw [hp, h0.mp hp]
    · have hq : q ≠ 0 := fun hq => hp (h0.mpr hq)
      simp [hp, hq]

/-! ## Answers -/

/-- The error of the score in the program: the rounding of the score of `x`. -/
def scoreError (r : Rounding K) (b : Builder K) (x : List K) : K :=
  (1 + r.u) * dotError r b.coefs x + r.u * |b.score x|

/-- What one reported point says, whatever the history. -/
theorem float_core (hso : SetOrderOk ext) (hu : r.u < 1) {ε δ : K} (ho : o.SoundUpTo ε δ) (hε : 0 ≤ ε) (hδ : 0 ≤ δ)
    (hb : AnyGrids b0) {d : K} (hd : FlDot r b0.coefs x d) (hx : b0.setXFl r ext d x = (b1, .ok ())) (hk : Keeps b1 b) {σ : Var → K}
    (hrep : (b.solve o).reported = some σ) {N : ℕ} {R : K} (hN : GridSizes N b0.aset)
    (hR : ChangesWithin R b0.aset x) (ht : (N : K) * δ + ε < 1) :
    (b.solve o).solutionInfo.feasible = true ∧ ∃ a a', (b.solve o).solutionInfo.actions = some a ∧
      NearAllowed (ε + scoreError r b0 x) (ε + (N : K) * δ * ((1 + r.u) * R) + r.u * R) b0.aset b0.coefs b0.intercept x a a'
        (max b0.minItems 1) b0.maxItems ∧
      (LimitsApply b0.aset x → KnowsZero r b0.aset x → RespectsLimits b0.aset x a') := by
  obtain ⟨feats, m, hxl, hbi, hm, rfl⟩ := setXFl_ok hx
  have hok := buildInfoFl_ok hso hu hb hbi
  obtain ⟨hnd, hxn, hspec, -⟩ := buildInfoFl_spec hso hu hb hbi
  obtain ⟨m', hm', hc⟩ := hk.mip m rfl
  have hσ := reported_upTo ho hm' hrep
  have hN1 : ∀ f ∈ feats, f.actions.length ≤ N := by
    intro f hf
    obtain ⟨e, xj, hs⟩ := hspec f hf
    have := hs.length
    have := hN.2 e (List.mem_of_getElem? hs.elem)
    omega
  have hfl : feats.length ≤ N := by
    have h1 : feats.length ≤ b0.coefs.length := by
      have hsub : (feats.map (·.idx)) ⊆ List.range b0.coefs.length := by
        intro j hj
        obtain ⟨f, hf, rfl⟩ := List.mem_map.mp hj
        exact List.mem_range.mpr (hok.lt f hf)
      have := (List.subperm_of_subset hok.nodup hsub).length_le
      simpa using this
    have := hb.coefs
    have := hN.1
    omega
  have hlim : ∀ c ∈ b0.aset.cons.items, c.indices.length ≤ N := by
    intro c hcm
    have hw := hb.cons c hcm
    have h1 := congrArg List.length hw.position
    rw [List.length_map, List.length_map] at h1
    have h2 := (List.subperm_of_subset hw.distinct hw.known).length_le
    have := hN.1
    omega
  set p : BuildArgs K := { b0.buildArgs x feats with score := b0.scoreFl r d } with hp
  obtain ⟨κ, hκ⟩ := near_choice (p := p) hm hok hc hσ hδ hN1 ht
  obtain ⟨hlo, hhi, hlims⟩ := near_conditions (p := p) hm hok hc hσ hδ hκ hfl hlim ht
  have hoff : ∀ f ∈ feats, ∃ xj v : K, (∃ e, FeatSpecFl ext r b0 x f e xj ∧ Permitted e xj v) ∧ f.act κ = r.fl (v - xj) := by
    intro f hf
    obtain ⟨e, xj, hs⟩ := hspec f hf
    have hlt := hκ.1 f hf
    obtain ⟨v, hv, hve⟩ := hs.offered (f.act κ) (by
      unfold Feat.act
      rw [List.getD_eq_getElem _ _ hlt]
      exact List.getElem_mem _)
    exact ⟨xj, v, ⟨e, hs, hv⟩, hve⟩
  classical
  choose! X V hE using hoff
  have hnearv : ∀ f ∈ feats, |f.act κ - (V f - X f)| ≤ r.u * R := by
    intro f hf
    obtain ⟨⟨e, hs, hv⟩, hve⟩ := hE f hf
    rw [hve]
    refine (r.near _).trans (mul_le_mul_of_nonneg_left ?_ r.nonneg)
    exact hR.2 f.idx e (X f) (V f) hs.elem hs.val hv
  refine ⟨?_, valVec b0.coefs.length feats (fun f => σ (.a f.idx)), valVec b0.coefs.length feats (fun f => V f - X f), ?_, ⟨?_, ?_, ?_, ?_, ?_⟩,
    fun hla hz => (limitsFl_iff hso hu hb hbi hla hz hκ.1 hE).mp hlims⟩
  · unfold Builder.solutionInfo
    rw [hrep, (solve_fields o b).2.2.2.2.2.1, hm']
  · unfold Builder.solutionInfo
    rw [hrep, (solve_fields o b).2.2.2.2.2.1, hm']
    simp only [(SameFixed.solve o b).feats, (SameFixed.solve o b).coefs, hk.feats, hk.coefs, List.zip_map']
    rfl
  · -- score
    have hs := hσ.cons (scoreCon b0.aset.yDesired (b0.scoreFl r d) feats) (hc.cons _ (by
      obtain ⟨lims, -, -, rfl⟩ := buildMip_ok hm
      simp [hp, Builder.buildArgs]))
    have hd' : dot b0.coefs (vadd x (valVec b0.coefs.length feats fun f => σ (.a f.idx))) + b0.intercept
        = b0.score x + (feats.map fun f => f.coef * σ (.a f.idx)).sum := by
      rw [dot_vadd _ _ _ (by rw [valVec_length, hxl]), valVec_dot hok _ rfl (fun f hf => by
        obtain ⟨_, _, hs⟩ := hspec f hf
        exact hs.coef)]
      unfold Builder.score; ring
    have e : evalLin σ (feats.map fun f => (Var.a f.idx, f.coef)) = (feats.map fun f => f.coef * σ (.a f.idx)).sum := by
      rw [evalLin_map]
    have herr := abs_le.mp (C104_error b0 hd)
    unfold scoreCon LinCon.SatUpTo at hs
    unfold ReachesScoreUpTo scoreError
    dsimp only at hs
    rw [e] at hs
    rw [hd']
    by_cases hy : 0 < b0.aset.yDesired
    · rw [if_pos hy] at hs ⊢; dsimp only at hs; linarith
    · rw [if_neg hy] at hs ⊢; dsimp only at hs; linarith
  · have hR0 : 0 ≤ (1 + r.u) * R := mul_nonneg (by linarith [r.nonneg]) hR.1
    have hrR : 0 ≤ r.u * R := mul_nonneg r.nonneg hR.1
    refine valVec_near hok (by
      have := mul_nonneg (mul_nonneg (Nat.cast_nonneg (α := K) N) hδ) hR0
      linarith) (fun f hf => ?_)
    obtain ⟨e, xj, hs⟩ := hspec f hf
    have h1 := near_action (p := p) hm hok hc hσ hδ hκ hR0 hf (hN1 f hf) (fun a ha => by
      obtain ⟨v, hv, rfl⟩ := hs.offered a ha
      have h2 := hR.2 f.idx e xj v hs.elem hs.val hv
      have h3 := r.near (v - xj)
      have h4 := abs_add_le (r.fl (v - xj) - (v - xj)) (v - xj)
      rw [sub_add_cancel] at h4
      have h5 := mul_le_mul_of_nonneg_left h2 r.nonneg
      linarith)
    have h2 := hnearv f hf
    have h3 := abs_add_le (σ (.a f.idx) - f.act κ) (f.act κ - (V f - X f))
    rw [sub_add_sub_cancel] at h3
    linarith
  · refine ⟨by rw [valVec_length, hxl], ?_⟩
    intro j e xj aj he hxj ha
    by_cases hf : ∃ f ∈ feats, f.idx = j
    · obtain ⟨f, hf, rfl⟩ := hf
      obtain ⟨⟨e', hs, hv⟩, -⟩ := hE f hf
      have h1 := hs.elem; rw [he] at h1; cases h1
      have h2 := hs.val; rw [hxj] at h2
      have h2 := Option.some.inj h2
      have h3 := put_feat hok (fun f => V f - X f) hf
      change (valVec b0.coefs.length feats fun f => V f - X f)[f.idx]? = _ at h3
      rw [ha] at h3
      have h3 := Option.some.inj h3
      rw [h3, h2, add_sub_cancel]
      exact hv
    · push Not at hf
      have hj : j < b0.coefs.length := by
        rw [← valVec_length b0.coefs.length feats fun f => V f - X f]
        exact (List.getElem?_eq_some_iff.mp ha).1
      have h3 := put_other (n := b0.coefs.length) (fun f : Feat K => V f - X f) hj hf
      change (valVec b0.coefs.length feats fun f => V f - X f)[j]? = _ at h3
      rw [ha] at h3; cases h3
      left; simp
  all_goals
    have hsame : numChanged (valVec b0.coefs.length feats fun f => V f - X f) = numChanged (actVec b0.coefs.length feats κ) := by
      refine numChanged_congr _ _ (by rw [valVec_length, actVec_length]) fun j => ?_
      by_cases hf : ∃ f ∈ feats, f.idx = j
      · obtain ⟨f, hf, rfl⟩ := hf
        have h3 := put_feat hok (fun f => V f - X f) hf
        have h4 := put_feat hok (fun f => f.act κ) hf
        change (valVec b0.coefs.length feats fun f => V f - X f)[f.idx]? = _ at h3
        change (actVec b0.coefs.length feats κ)[f.idx]? = _ at h4
        rw [List.getD_eq_getElem?_getD, List.getD_eq_getElem?_getD, h3, h4]
        show V f - X f = 0 ↔ f.act κ = 0
        rw [(hE f hf).2, fl_eq_zero hu]
      · push Not at hf
        by_cases hj : j < b0.coefs.length
        · have h3 := put_other (n := b0.coefs.length) (fun f : Feat K => V f - X f) hj hf
          have h4 := put_other (n := b0.coefs.length) (fun f : Feat K => f.act κ) hj hf
          change (valVec b0.coefs.length feats fun f => V f - X f)[j]? = _ at h3
          change (actVec b0.coefs.length feats κ)[j]? = _ at h4
          rw [List.getD_eq_getElem?_getD, List.getD_eq_getElem?_getD, h3, h4]
        · rw [List.getD_eq_default _ _ (by rw [valVec_length]; omega), List.getD_eq_default _ _ (by rw [actVec_length]; omega)]
    rw [hsame]
    unfold numChanged
    rw [actVec_countP hok hκ.1]
  · exact hlo
  · exact hhi

/-- **C105.**  The guarantees of C22 survive rounding and solver tolerances together.  Whatever the (increasing) grids, in whatever order the score of `x` is computed, and whatever
fits, enumerations and changes of the action set came before: a feasible answer of `fit()` misses the desired score by at most the solver's tolerance and the rounding
error of the score, and is within `ε + N · δ · (1 + u) · R + u · R` in each feature of an action that leads to values on the grids as permitted, and changes between
`max(min_items, 1)` and `max_items` features. -/
theorem C105_fit (hso : SetOrderOk ext) (hu : r.u < 1) {ε δ : K} (ho : o.SoundUpTo ε δ) (hε : 0 ≤ ε) (hδ : 0 ≤ δ)
    (hb : AnyGrids b0) {d : K} (hd : FlDot r b0.coefs x d) (hx : b0.setXFl r ext d x = (b1, .ok ())) (ha : b1.After o b)
    (hf : b.fit o = .ok (b', i)) (hi : i.feasible = true) {N : ℕ} {R : K} (hN : GridSizes N b0.aset)
    (hR : ChangesWithin R b0.aset x) (ht : (N : K) * δ + ε < 1) :
    ∃ a a', i.actions = some a ∧ NearAllowed (ε + scoreError r b0 x) (ε + (N : K) * δ * ((1 + r.u) * R) + r.u * R) b0.aset b0.coefs
      b0.intercept x a a' (max b0.minItems 1) b0.maxItems := by
  obtain ⟨σ, hrep, rfl⟩ := fit_reported hf hi
  obtain ⟨a, a', h1, h2, -⟩ := (float_core hso hu ho hε hδ hb hd hx (Keeps.after ha) hrep hN hR ht).2
  exact ⟨a, a', h1, h2⟩

/-- C105 with subset limits: if rounding does not hide whether listed features become 0, the action close to the answer respects the subset limits where they
apply. -/
theorem C105_limits (hso : SetOrderOk ext) (hu : r.u < 1) {ε δ : K} (ho : o.SoundUpTo ε δ) (hε : 0 ≤ ε) (hδ : 0 ≤ δ)
    (hb : AnyGrids b0) {d : K} (hd : FlDot r b0.coefs x d) (hx : b0.setXFl r ext d x = (b1, .ok ())) (ha : b1.After o b)
    (hf : b.fit o = .ok (b', i)) (hi : i.feasible = true) {N : ℕ} {R : K} (hN : GridSizes N b0.aset)
    (hR : ChangesWithin R b0.aset x) (ht : (N : K) * δ + ε < 1) (hz : KnowsZero r b0.aset x) :
    ∃ a a', i.actions = some a ∧ NearRecourse (ε + scoreError r b0 x) (ε + (N : K) * δ * ((1 + r.u) * R) + r.u * R) b0.aset b0.coefs
      b0.intercept x a a' (max b0.minItems 1) b0.maxItems := by
  obtain ⟨σ, hrep, rfl⟩ := fit_reported hf hi
  obtain ⟨a, a', h1, h2, h3⟩ := (float_core hso hu ho hε hδ hb hd hx (Keeps.after ha) hrep hN hR ht).2
  exact ⟨a, a', h1, h2.score, h2.near, h2.permitted, h2.min, h2.max, fun hla => h3 hla hz⟩

/-- C105 for the items of `populate`. -/
theorem C105_items (hso : SetOrderOk ext) (hu : r.u < 1) {ε δ : K} (ho : o.SoundUpTo ε δ) (hε : 0 ≤ ε) (hδ : 0 ≤ δ)
    (hb : AnyGrids b0) {d : K} (hd : FlDot r b0.coefs x d) (hx : b0.setXFl r ext d x = (b1, .ok ())) (ha : b1.After o b)
    {et : EnumType} {fuel : ℕ} {total : Option ℕ} {items : List (Info K)} (hp : b.populate o et fuel total = .ok (some (b', items)))
    {N : ℕ} {R : K} (hN : GridSizes N b0.aset) (hR : ChangesWithin R b0.aset x) (ht : (N : K) * δ + ε < 1) :
    ∀ i ∈ items, i.feasible = true ∧ ∃ a a', i.actions = some a ∧
      NearAllowed (ε + scoreError r b0 x) (ε + (N : K) * δ * ((1 + r.u) * R) + r.u * R) b0.aset b0.coefs b0.intercept x a a'
        (max b0.minItems 1) b0.maxItems ∧ (LimitsApply b0.aset x → KnowsZero r b0.aset x → RespectsLimits b0.aset x a') := by
  intro i hi
  obtain ⟨-, -, hl⟩ := populate_ok hp
  obtain ⟨-, l', h1, h2⟩ := (Keeps.after ha).popLoop hl
  rw [List.nil_append] at h1
  subst h1
  obtain ⟨c, σ, hk, hrep, rfl⟩ := h2 i hi
  exact float_core hso hu ho hε hδ hb hd hx hk hrep hN hR ht

end Recourse
