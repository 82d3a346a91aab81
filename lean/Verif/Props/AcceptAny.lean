import Verif.Props.Accept
import Verif.Props.Alignment
import Verif.Lemmas.Slots

/-!
# C88: exactly which points are accepted, for any alignment and any subset limits
-/

set_option linter.unusedSectionVars false

namespace Recourse

variable {K : Type} [Field K] [LinearOrder K] [IsStrictOrderedRing K] [FloorRing K]

variable {ext : Ext K} {b : Builder K} {x : List K} {feats : List (Feat K)}

/-- Column `j` is one of the columns of the program. -/
def InProgram (A : ActionSet K) (x : List K) (j : ℕ) : Prop :=
  HasChange A x j ∧ (CompatibleColumn A j ∨ ∃ n, A.names[j]? = some n ∧ Listed A n)

/-- What a point must meet, apart from subset limits being in range: it has one value for every feature; the set is aligned (to any classifier); percentiles can be
computed for the compatible and the listed features; for every column of the program the coefficient exceeds numpy's tolerance `1e-8`,
the recorded flip direction agrees with the classifier (unless the feature is listed in a subset limit), and for listed ones the permitted values lie on
one side of the point and 0 is among them if the point is positive there; and there is some column in the program (needed for the cost
types `total` and `local`). -/
structure FeaturesInOrder (ext : Ext K) (b : Builder K) (x : List K) : Prop where
  length : x.length = b.coefs.length
  aligned : ∀ e ∈ b.aset.elems, e.flip ≠ none
  scores : ∀ (j : ℕ) (n : String) (e : Elem K), b.aset.names[j]? = some n → b.aset.elems[j]? = some e →
    (e.compatible ≠ some false ∨ Listed b.aset n) → ∃ v p, e.percentile ext v = .ok p
  coefs : ∀ (j : ℕ) (w : K), b.coefs[j]? = some w → InProgram b.aset x j → 1 / 10 ^ 8 < |w|
  agrees : ∀ (j : ℕ) (n : String) (e : Elem K) (w : K), b.aset.names[j]? = some n → b.aset.elems[j]? = some e →
    b.coefs[j]? = some w → InProgram b.aset x j → ¬ Listed b.aset n → AgreesWith b.aset.yDesired w e
  side : ∀ (j : ℕ) (n : String) (e : Elem K) (xj : K), b.aset.names[j]? = some n → b.aset.elems[j]? = some e →
    x[j]? = some xj → InProgram b.aset x j → Listed b.aset n →
    (∀ v, Permitted e xj v → xj ≤ v) ∨ ∀ v, Permitted e xj v → v ≤ xj
  zero : ∀ (j : ℕ) (n : String) (e : Elem K) (xj : K), b.aset.names[j]? = some n → b.aset.elems[j]? = some e →
    x[j]? = some xj → InProgram b.aset x j → Listed b.aset n → 0 < xj → Permitted e xj 0
  some : b.costType = .max ∨ ∃ j, InProgram b.aset x j

/-- Everything a point must meet: the features are in order, and the column numbers of the listed features are smaller than the
number of columns of the program. -/
structure AcceptedAt (ext : Ext K) (b : Builder K) (x : List K) : Prop extends FeaturesInOrder ext b x where
  positions : PositionsExist ext b.aset x

/-- Every feature that has something to offer passes. -/
theorem feat_total_any (hso : SetOrderOk ext) (hb : BuilderOK ext b) (hlog : LogIncreasing ext)
    (hreg : Placed ext b x) (hacc : FeaturesInOrder ext b x) {grid : List (GridEntry K)}
    (hgrid : b.aset.feasibleGrid ext x true true = .ok grid) {g : GridEntry K} (hg : g ∈ grid)
    (hg2 : 2 ≤ g.acts.length) :
    ∃ f, mkFeat ext b x b.aset.cons.flatNames g = .ok f ∧
      checkFeat b.aset.yDesired b.aset.cons.flatNames f = true := by
  have hwf := hb.aset.wf
  obtain ⟨-, g2, g3⟩ := C20_feasible_grid hso hb.aset hgrid
  have hxl : x.length = b.aset.names.length := by rw [hacc.length, hb.coefs]
  have hgn := g2 g hg
  set j := b.aset.names.idxOf g.name with hjd
  have hj : b.aset.names[j]? = some g.name := List.getElem?_idxOf hgn
  have hjlt : j < b.aset.names.length := List.idxOf_lt_length_iff.mpr hgn
  obtain ⟨e, he⟩ : ∃ e, b.aset.elems[j]? = some e :=
    ⟨_, List.getElem?_eq_getElem (by rw [hwf.length]; exact hjlt)⟩
  obtain ⟨xj, hxj⟩ : ∃ xj, x[j]? = some xj := ⟨_, List.getElem?_eq_getElem (by rw [hxl]; exact hjlt)⟩
  obtain ⟨w, hw⟩ : ∃ w, b.coefs[j]? = some w := ⟨_, List.getElem?_eq_getElem (by rw [hb.coefs]; exact hjlt)⟩
  obtain ⟨h1, h2⟩ := g3 j g.name e xj hj he hxj
  obtain ⟨hacts, hpcts⟩ := h2 g hg rfl
  have hdrop : decide (¬ ∃ k ∈ b.aset.cons.items, g.name ∈ k.names) = decide (g.name ∉ b.aset.cons.flatNames) := by
    rw [decide_eq_decide]; exact not_listed_iff.symm
  rw [hdrop] at hacts hpcts
  have hin0 : CompatibleColumn b.aset j ∨ Listed b.aset g.name := by
    rcases h1.mp ⟨g, hg, rfl⟩ with h | h
    · exact Or.inl fun e' he' => by rw [he] at he'; obtain rfl := Option.some.inj he'; exact h
    · exact Or.inr h
  have hfit' := hreg.fits j e xj he hxj
  have hinv := (hwf.elems e (List.mem_of_getElem? he)).inv
  unfold Elem.feasiblePercentiles at hpcts
  obtain ⟨t, ht, hpcts⟩ := bind_ok_iff.mp hpcts
  have hpc := Except.ok.inj hpcts
  have hac := feasibleValues_ok hacts
  simp only [if_true] at hac
  set V := e.feasX xj (decide (g.name ∉ b.aset.cons.flatNames)) with hV
  have hVl : 2 ≤ V.length := by rw [hac] at hg2; simpa using hg2
  have hmem : ∀ v, v ∈ V ↔ Permitted e xj v ∧ KeepFlip e (decide (g.name ∉ b.aset.cons.flatNames)) xj v :=
    fun v => mem_feasX hfit'
  have hs : V.Pairwise (· < ·) := feasX_pairwise hinv.2.2 hfit'
  have hxV : xj ∈ V := (hmem xj).mpr ⟨Or.inl rfl, fun _ d _ => ⟨fun _ => le_refl _, fun _ => le_refl _⟩⟩
  have hgridm : ∀ v ∈ V, v = xj ∨ v ∈ e.grid.vals := by
    intro v hv
    rcases ((hmem v).mp hv).1 with h | h
    · exact Or.inl h
    · exact Or.inr h.2.1
  have ha : e.actionable = true := by
    obtain ⟨v, hv, hvne⟩ := exists_ne_of_two hs hVl xj
    exact ((((hmem v).mp hv).1).resolve_left hvne).1
  have hap : ∀ v ∈ V, v ≠ xj → isClose (v - xj) 0 = false := by
    intro v hv hne
    rw [isClose_zero]
    exact hreg.apart j e xj v he hxj ha ((hgridm v hv).resolve_left hne) hne
  have hu : InProgram b.aset x j := by
    obtain ⟨v, hv, hvne⟩ := exists_ne_of_two hs hVl xj
    obtain ⟨hp, hk⟩ := (hmem v).mp hv
    refine ⟨⟨g.name, e, xj, v, hj, he, hxj, hvne, hp, fun hl d hd => hk (decide_eq_true (not_listed_iff.mpr hl)) d hd⟩,
      hin0.imp id fun h => ⟨_, hj, h⟩⟩
  have hwb := hacc.coefs j w hw hu
  have hy := hwf.y
  have hw0 : w ≠ 0 := by rintro rfl; rw [abs_zero] at hwb; exact absurd hwb (not_lt.mpr (by positivity))
  -- one side
  have hdir : g.name ∉ b.aset.cons.flatNames → (0 < b.aset.yDesired * sgn w → ∀ v ∈ V, xj ≤ v) ∧
      (¬ 0 < b.aset.yDesired * sgn w → ∀ v ∈ V, v ≤ xj) := by
    intro hm
    obtain ⟨d, hfl, hag⟩ := hacc.agrees j g.name e w hj he hw hu (not_listed_iff.mp hm)
    constructor
    · intro hd v hv
      exact (((hmem v).mp hv).2 (decide_eq_true hm) _ hfl).1 (pos_of_mul_pos_left hag hd.le)
    · intro hd v hv
      have h0 : b.aset.yDesired * sgn w < 0 := by
        rcases lt_trichotomy (b.aset.yDesired * sgn w) 0 with h | h | h
        · exact h
        · rw [h, mul_zero] at hag; exact absurd hag (lt_irrefl _)
        · exact absurd h hd
      exact (((hmem v).mp hv).2 (decide_eq_true hm) _ hfl).2 (by nlinarith)
  have hside : (∀ v ∈ V, xj ≤ v) ∨ ∀ v ∈ V, v ≤ xj := by
    by_cases hm : g.name ∈ b.aset.cons.flatNames
    · rcases hacc.side j g.name e xj hj he hxj hu (listed_iff.mp hm) with h | h
      · exact Or.inl fun v hv => h v ((hmem v).mp hv).1
      · exact Or.inr fun v hv => h v ((hmem v).mp hv).1
    · by_cases hd : 0 < b.aset.yDesired * sgn w
      · exact Or.inl ((hdir hm).1 hd)
      · exact Or.inr ((hdir hm).2 hd)
  obtain ⟨T, hT, hor⟩ := buildOrder_side hs hxV hap hside
  have hTV : ∀ v, v ∈ xj :: T ↔ v ∈ V := by intro v; rw [← hT]; exact mem_buildOrder
  have hpt : ∀ v, e.percentile ext v = .ok (t.eval v) := by intro v; unfold Elem.percentile; rw [ht]; rfl
  have hlt : ∀ u ∈ V, ∀ v ∈ V, u < v → t.eval u < t.eval v := fun u hu v hv huv =>
    hreg.pct j e xj u v _ _ he hxj ha (hgridm u hu) (hgridm v hv) huv (hpt u) (hpt v)
  have hbel : b.costType = .loc → ∀ v ∈ V, t.eval v < 1 := fun hl v hv =>
    hreg.below hl j e xj v _ he hxj ha (hgridm v hv) (hpt v)
  set up := (buildOrder V xj).1 with hup
  set C := stepCost ext b.costType t.eval xj up with hC
  have hCs : (xj :: T).Pairwise fun u v => C u < C v := by
    rcases hor with ⟨h3, h4⟩ | ⟨h3, h4⟩
    · refine h4.imp_of_mem ?_
      intro u v hu hv huv
      refine stepCost_lt hlog (fun hl => ⟨hbel hl _ hxV, hbel hl _ ((hTV u).mp hu), hbel hl _ ((hTV v).mp hv)⟩) ?_
      rw [h3, if_pos rfl]
      exact hlt u ((hTV u).mp hu) v ((hTV v).mp hv) huv
    · refine h4.imp_of_mem ?_
      intro u v hu hv huv
      refine stepCost_lt hlog (fun hl => ⟨hbel hl _ hxV, hbel hl _ ((hTV u).mp hu), hbel hl _ ((hTV v).mp hv)⟩) ?_
      rw [h3, if_neg (by simp)]
      exact hlt v ((hTV v).mp hv) u ((hTV u).mp hu) huv
  have hC0 : C xj = 0 := stepCost_self hlog fun hl => hbel hl _ hxV
  have hCpos : ∀ v ∈ T, 0 < C v := fun v hv => by
    have := (List.pairwise_cons.mp hCs).1 v hv
    rwa [hC0] at this
  have hTne : ∀ v ∈ T, v ≠ xj := fun v hv h => by
    have := hCpos v hv; rw [h, hC0] at this; exact lt_irrefl _ this
  have hVne : V ≠ [] := List.ne_nil_of_mem hxV
  have hzip := orient_zip ext b.costType t.eval V xj hVne hT
  rw [hT] at hzip
  have hdb : dropBugs ((orient ext b.costType g.acts g.pcts).1.zip (orient ext b.costType g.acts g.pcts).2)
      = some ((xj :: T).map fun v => (v - xj, C v)) := by
    rw [hac, ← hpc, hzip, List.map_cons]
    refine dropBugs_keep ?_ ?_
    · unfold isBug
      rw [Bool.or_eq_true]
      exact Or.inl (decide_eq_true (le_of_eq hC0))
    · intro q hq
      obtain ⟨v, hv, rfl⟩ := List.mem_map.mp hq
      unfold isBug
      rw [Bool.or_eq_false_iff]
      exact ⟨decide_eq_false (not_le.mpr (hCpos v hv)),
        hap v ((hTV v).mp (List.mem_cons_of_mem _ hv)) (hTne v hv)⟩
  have hTl : 2 ≤ (xj :: T).length := by rw [← hT, buildOrder_length]; exact hVl
  -- the nullifying position
  obtain ⟨k, hk⟩ : ∃ k, (if g.name ∈ b.aset.cons.flatNames ∧ 0 < xj then
      nullIndex (((xj :: T).map fun v => (v - xj, C v)).map (·.1)) xj else .ok 0) = .ok k := by
    by_cases hcnd : g.name ∈ b.aset.cons.flatNames ∧ 0 < xj
    · rw [if_pos hcnd]
      unfold nullIndex
      have h0 : Permitted e xj 0 := hacc.zero j g.name e xj hj he hxj hu (listed_iff.mp hcnd.1) hcnd.2
      have h0V : (0 : K) ∈ V := (hmem 0).mpr ⟨h0, fun hf => absurd hcnd.1 (of_decide_eq_true hf)⟩
      rw [if_pos]
      · exact ⟨_, rfl⟩
      · rw [List.map_map]
        exact List.mem_map.mpr ⟨0, (hTV 0).mpr h0V, by simp⟩
    · rw [if_neg hcnd]; exact ⟨_, rfl⟩
  have hvn : b.varNames.idxOf g.name = j := by rw [hb.names]
  refine ⟨_, mkFeat_mk hdb (by rw [hb.names]; exact hgn) (hvn ▸ hw) (hvn ▸ hxj) hk (by simpa using hTl), ?_⟩
  rw [checkFeat_iff]
  simp only [List.map_map]
  refine ⟨isClose_zero.mpr hwb, by simpa using hC0, by simp, ?_, by simpa using hTl, by simp, ?_, ?_⟩
  · by_cases hm : g.name ∈ b.aset.cons.flatNames
    · exact Or.inl hm
    · right
      by_cases hd : 0 < b.aset.yDesired * sgn w
      · rw [if_pos hd]
        intro a ha'
        simp only [List.map_cons, List.tail_cons, List.mem_map, Function.comp] at ha'
        obtain ⟨v, hv, rfl⟩ := ha'
        have h5 := (hdir hm).1 hd v ((hTV v).mp (List.mem_cons_of_mem _ hv))
        exact sub_pos.mpr (lt_of_le_of_ne h5 (hTne v hv).symm)
      · rw [if_neg hd]
        intro a ha'
        simp only [List.map_cons, List.tail_cons, List.mem_map, Function.comp] at ha'
        obtain ⟨v, hv, rfl⟩ := ha'
        have h5 := (hdir hm).2 hd v ((hTV v).mp (List.mem_cons_of_mem _ hv))
        exact sub_neg.mpr (lt_of_le_of_ne h5 (hTne v hv))
  · unfold List.Nodup
    rw [List.pairwise_map]
    rcases hor with ⟨-, h4⟩ | ⟨-, h4⟩
    · exact h4.imp fun h => by simpa using ne_of_lt h
    · exact h4.imp fun h => by simpa using ne_of_gt h
  · unfold List.Nodup
    rw [List.pairwise_map]
    exact hCs.imp fun h => ne_of_lt h

/-- The conditions suffice for the build information. -/
theorem buildInfo_total_any (hso : SetOrderOk ext) (hb : BuilderOK ext b) (hlog : LogIncreasing ext)
    (hreg : Placed ext b x) (hacc : FeaturesInOrder ext b x) : ∃ feats, b.buildInfo ext x = .ok feats := by
  have hwf := hb.aset.wf
  have hxl : x.length = b.aset.names.length := by rw [hacc.length, hb.coefs]
  obtain ⟨grid, hgrid⟩ := feasibleGrid_total hso hb.aset hxl (by
    intro j n e hj he hor
    obtain ⟨d, hd⟩ := Option.ne_none_iff_exists'.mp (hacc.aligned e (List.mem_of_getElem? he))
    refine ⟨by unfold Elem.aligned; rw [hd]; rfl, ?_⟩
    obtain ⟨v, p, hp⟩ := hacc.scores j n e hj he hor
    unfold Elem.percentile at hp
    obtain ⟨t, ht, -⟩ := bind_ok_iff.mp hp
    exact ⟨t, ht⟩)
  have hf : ∀ g ∈ grid.filter (fun g => decide (2 ≤ g.acts.length)), ∃ f,
      mkFeat ext b x b.aset.cons.flatNames g = .ok f ∧ checkFeat b.aset.yDesired b.aset.cons.flatNames f = true := by
    intro g hg
    rw [List.mem_filter, decide_eq_true_iff] at hg
    exact feat_total_any hso hb hlog hreg hacc hgrid hg.1 hg.2
  obtain ⟨feats, hfs⟩ := mapM_total fun g hg => (hf g hg).imp fun _ h => h.1
  refine ⟨feats, ?_⟩
  unfold Builder.buildInfo
  rw [hgrid, ok_bind, hfs, ok_bind, (List.all_eq_true (p := checkFeat b.aset.yDesired b.aset.cons.flatNames)).mpr]
  · rfl
  · intro f hf'
    obtain ⟨g, hg, hgf⟩ := mapM_ok_mem hfs hf'
    obtain ⟨f', h1, h2⟩ := hf g hg
    rw [hgf] at h1; cases h1
    exact h2

/-- Subset limits can be written down exactly if their column numbers are positions in the list of usable features. -/
theorem limitCons_total (be : Backend) (k : SubsetLimit) :
    (∃ l, limitCons be feats k = .ok l) ↔ ∀ i ∈ k.indices, i < feats.length := by
  have hnull : (∃ vs, nullNames feats k.indices = .ok vs) ↔ ∀ i ∈ k.indices, i < feats.length := by
    constructor
    · rintro ⟨vs, hvs⟩ i hi
      by_contra hlt
      have : ∀ (is : List ℕ), i ∈ is → ∀ vs, nullNames feats is ≠ .ok vs := by
        intro is
        induction is with
        | nil => intro h; cases h
        | cons c is ih =>
          intro hm vs hvs
          obtain ⟨u, r, h1, h2, -⟩ := mapM_ok_cons.mp hvs
          rcases List.mem_cons.mp hm with rfl | hm
          · rw [List.getElem?_eq_none (by omega)] at h1; cases h1
          · exact ih hm r h2
      exact this _ hi vs hvs
    · intro h
      refine mapM_total fun i hi => ?_
      exact ⟨_, by rw [List.getElem?_eq_getElem (h i hi)]⟩
  rw [← hnull]
  cases be
  · constructor
    · rintro ⟨l, hl⟩
      unfold limitCons limitConsCpx at hl
      obtain ⟨vs, hvs, -⟩ := bind_ok_iff.mp hl
      exact ⟨vs, hvs⟩
    · rintro ⟨vs, hvs⟩
      exact ⟨_, by unfold limitCons limitConsCpx; dsimp only; rw [hvs]; rfl⟩
  · constructor
    · rintro ⟨l, hl⟩
      unfold limitCons limitConsPy at hl
      obtain ⟨vs, hvs, -⟩ := bind_ok_iff.mp hl
      exact ⟨vs, hvs⟩
    · rintro ⟨vs, hvs⟩
      exact ⟨_, by unfold limitCons limitConsPy; dsimp only; rw [hvs]; rfl⟩

theorem positions_total (hso : SetOrderOk ext) (hon : SetOrderOnce ext) (hb : BuilderOK ext b) (hreg : Placed ext b x)
    (h : b.buildInfo ext x = .ok feats) (be : Backend) :
    (∃ lims, b.aset.cons.items.mapM (limitCons be feats) = .ok lims) ↔ PositionsExist ext b.aset x := by
  have hwf := hb.aset.wf
  have hpc := programColumns_eq hso hon hb hreg.fits h
  have key : ∀ k ∈ b.aset.cons.items, (∀ i ∈ k.indices, i < feats.length) ↔
      ∀ n ∈ k.names, b.aset.names.idxOf n < (programColumns ext b.aset x).length := by
    intro k hk
    rw [limit_indices hwf.distinct (hwf.cons k hk), hpc, List.length_map]
    simp
  constructor
  · rintro ⟨lims, hl⟩ k hk
    refine (key k hk).mp ((limitCons_total be k).mp ?_)
    obtain ⟨l, hl⟩ : ∃ l, limitCons be feats k = .ok l := by
      have : ∀ (ks : List SubsetLimit) (r : List (List (LinCon K))), ks.mapM (limitCons be feats) = .ok r → k ∈ ks →
          ∃ l, limitCons be feats k = .ok l := by
        intro ks
        induction ks with
        | nil => intro r _ h; cases h
        | cons c ks ih =>
          intro r hr hm
          obtain ⟨u, r', h1, h2, -⟩ := mapM_ok_cons.mp hr
          rcases List.mem_cons.mp hm with rfl | hm
          · exact ⟨u, h1⟩
          · exact ih r' h2 hm
      exact this _ _ hl hk
    exact ⟨l, hl⟩
  · intro hp
    exact mapM_total fun k hk => (limitCons_total be k).mpr ((key k hk).mpr (hp k hk))

/-- The columns of the program. -/
theorem mem_programColumns {A : ActionSet K} (hso : SetOrderOk ext) (hA : A.Reachable ext) {j : ℕ} :
    j ∈ programColumns ext A x ↔ InProgram A x j := by
  classical
  have hwf := hA.wf
  unfold programColumns InProgram
  rw [List.mem_append, List.mem_filter, List.mem_filter, List.mem_range, decide_eq_true_eq, decide_eq_true_eq, List.mem_map]
  constructor
  · rintro (⟨-, h1, h2⟩ | ⟨⟨n, hn, rfl⟩, h1, h2⟩)
    · exact ⟨h2, Or.inl h1⟩
    · have hl : Listed A n := listed_iff.mp ((hso _ _).mp hn)
      obtain ⟨k, hk, hnk⟩ := id hl
      exact ⟨h2, Or.inr ⟨n, List.getElem?_idxOf ((hwf.cons k hk).known n hnk), hl⟩⟩
  · rintro ⟨h1, h2⟩
    by_cases hc : CompatibleColumn A j
    · obtain ⟨n, -, -, -, hn, -⟩ := id h1
      exact Or.inl ⟨(List.getElem?_eq_some_iff.mp hn).1, hc, h1⟩
    · obtain ⟨n, hn, hl⟩ := h2.resolve_left hc
      refine Or.inr ⟨⟨n, (hso _ _).mpr (listed_iff.mpr hl), ?_⟩, hc, h1⟩
      obtain ⟨hlt, hn⟩ := List.getElem?_eq_some_iff.mp hn
      rw [← hn]; exact hwf.distinct.idxOf_getElem _ hlt

/-- If the columns of the program can be built, the features are in order. -/
theorem features_of_build (hso : SetOrderOk ext) (hon : SetOrderOnce ext) (hb : BuilderOK ext b) (hreg : Placed ext b x)
    (hal : ∀ e ∈ b.aset.elems, e.flip ≠ none) (hxl' : x.length = b.coefs.length) {feats : List (Feat K)}
    (hfs : b.buildInfo ext x = .ok feats) (hne : b.costType ≠ .max → feats ≠ []) : FeaturesInOrder ext b x := by
  obtain ⟨-, hxl, hspec, hall⟩ := buildInfo_spec hso hb hfs
  have hpc := programColumns_eq hso hon hb hreg.fits hfs
  have hcol : ∀ j, InProgram b.aset x j → ∃ f ∈ feats, f.idx = j := by
    intro j hj
    rw [← mem_programColumns hso hb.aset, hpc] at hj
    exact List.mem_map.mp hj
  have hcol' : ∀ (j : ℕ) (n : String) (e : Elem K) (xj : K), b.aset.names[j]? = some n →
      b.aset.elems[j]? = some e → x[j]? = some xj → InProgram b.aset x j →
      ∃ f ∈ feats, f.name = n ∧ f.idx = j ∧ ∃ t T, FeatSpec ext b x f e xj t T := by
    intro j n e xj hn he hxj hj
    obtain ⟨f, hf, rfl⟩ := hcol j hj
    obtain ⟨e', xj', t, T, hs⟩ := hspec f hf
    have q1 := hs.elem; rw [he] at q1; obtain rfl := Option.some.inj q1
    have q2 := hs.val; rw [hxj] at q2; obtain rfl := Option.some.inj q2
    have q3 := hs.name; rw [hn] at q3; obtain rfl := Option.some.inj q3
    exact ⟨f, hf, rfl, rfl, t, T, hs⟩
  refine ⟨hxl', hal, ?_, ?_, ?_, ?_, ?_, ?_⟩
  · intro j n e hn he hor
    have hfs' := hfs
    unfold Builder.buildInfo at hfs'
    simp only [bind_ok_iff] at hfs'
    obtain ⟨grid, hgrid, -⟩ := hfs'
    obtain ⟨-, -, g3⟩ := C20_feasible_grid hso hb.aset hgrid
    have hjlt : j < b.aset.names.length := (List.getElem?_eq_some_iff.mp hn).1
    obtain ⟨xj, hxj⟩ : ∃ xj, x[j]? = some xj := ⟨_, List.getElem?_eq_getElem (by rw [hxl]; exact hjlt)⟩
    obtain ⟨h1, h2⟩ := g3 j n e xj hn he hxj
    obtain ⟨g, hg, hgn⟩ := h1.mpr hor
    obtain ⟨-, h4⟩ := h2 g hg hgn
    unfold Elem.feasiblePercentiles at h4
    obtain ⟨t, ht, -⟩ := bind_ok_iff.mp h4
    exact ⟨0, t.eval 0, by unfold Elem.percentile; rw [ht]; rfl⟩
  · intro j w hw hj
    obtain ⟨f, hf, rfl⟩ := hcol j hj
    obtain ⟨e', xj', t, T, hs⟩ := hspec f hf
    have h1 := hs.coef
    rw [hw] at h1; cases h1
    exact isClose_zero.mp (checkFeat_iff.mp hs.check).1
  · intro j n e w hn he hw hj hl
    obtain ⟨f, hf, rfl⟩ := hcol j hj
    obtain ⟨e', xj', t, T, hs⟩ := hspec f hf
    have q1 := hs.elem; rw [he] at q1; obtain rfl := Option.some.inj q1
    have q2 := hs.coef; rw [hw] at q2; obtain rfl := Option.some.inj q2
    have q3 := hs.name; rw [hn] at q3; obtain rfl := Option.some.inj q3
    exact hs.agrees hb (hal e (List.mem_of_getElem? he)) hl
  · intro j n e xj hn he hxj hj hlist
    obtain ⟨f, hf, hfn, -, t, T, hs⟩ := hcol' j n e xj hn he hxj hj
    have hmem : ∀ v, Permitted e xj v → v = xj ∨ v ∈ T := by
      intro v hv
      by_cases hvx : v = xj
      · exact Or.inl hvx
      · refine Or.inr ((hs.mem_T hb v).mpr ⟨hvx, hv, fun hd => ?_⟩)
        exact absurd (hfn ▸ listed_iff.mpr hlist) (of_decide_eq_true hd)
    cases hup : (buildOrder (e.feasX xj (dropOf b f)) xj).1 with
    | true =>
      left
      intro v hv
      rcases hmem v hv with rfl | hv
      · exact le_refl _
      · rcases hs.side hb v hv with ⟨-, h⟩ | ⟨h, -⟩
        · exact h.le
        · rw [hup] at h; cases h
    | false =>
      right
      intro v hv
      rcases hmem v hv with rfl | hv
      · exact le_refl _
      · rcases hs.side hb v hv with ⟨h, -⟩ | ⟨-, h⟩
        · rw [hup] at h; cases h
        · exact h.le
  · intro j n e xj hn he hxj hj hlist hpos
    obtain ⟨f, hf, hfn, -, t, T, hs⟩ := hcol' j n e xj hn he hxj hj
    have hnul := hs.null.1 ⟨hfn ▸ listed_iff.mpr hlist, hpos⟩
    have hlt : f.kNull < f.actions.length := (List.getElem?_eq_some_iff.mp hnul).1
    have hp := hs.permitted hb (κ := fun _ => f.kNull) hlt
    unfold Feat.act at hp
    rwa [List.getD_eq_getElem?_getD, hnul, Option.getD_some, add_neg_cancel] at hp
  · by_cases hct : b.costType = .max
    · exact Or.inl hct
    · obtain ⟨f, hf⟩ := List.exists_mem_of_ne_nil _ (hne hct)
      refine Or.inr ⟨f.idx, (mem_programColumns hso hb.aset).mp ?_⟩
      rw [hpc]; exact List.mem_map.mpr ⟨f, hf, rfl⟩

/-- **C88**, in full: whatever the action set was aligned to and whatever subset limits it has, when grids and percentiles are in order at
the point the assignment `b.x = x` succeeds exactly under the conditions of `AcceptedAt`.  The intercept, the predicted outcome of
the point, the item limits and the back end play no role. -/
theorem C88_exact (hso : SetOrderOk ext) (hon : SetOrderOnce ext) (hlog : LogIncreasing ext) (hr : b.Reachable ext)
    (hreg : Placed ext b x) : (b.setX ext x).2 = .ok () ↔ AcceptedAt ext b x := by
  have hb := hr.ok
  have hwf := hb.aset.wf
  constructor
  · intro hst
    rcases hh : b.setX ext x with ⟨b1, r⟩
    have hr' : r = .ok () := by rw [hh] at hst; exact hst
    subst hr'
    have hal := accepted_aligned hr hh
    obtain ⟨feats, m, hxl', hfs, hm, -⟩ := setX_ok hh
    obtain ⟨lims, hlims, hne, -⟩ := buildMip_ok hm
    exact ⟨features_of_build hso hon hb hreg hal hxl' hfs hne,
      (positions_total hso hon hb hreg hfs b.backend).mp ⟨lims, hlims⟩⟩
  · intro hacc
    rw [setX_status]
    rw [if_neg (not_not.mpr hacc.length)]
    obtain ⟨feats, hfs⟩ := buildInfo_total_any hso hb hlog hreg hacc.toFeaturesInOrder
    rw [hfs, ok_bind]
    obtain ⟨lims, hlims⟩ := (positions_total hso hon hb hreg hfs b.backend).mpr hacc.positions
    have hne : b.costType ≠ .max → feats ≠ [] := by
      intro hct
      obtain ⟨j, hj⟩ := hacc.some.resolve_left hct
      rw [← mem_programColumns hso hb.aset, programColumns_eq hso hon hb hreg.fits hfs] at hj
      obtain ⟨f, hf, -⟩ := List.mem_map.mp hj
      exact List.ne_nil_of_mem hf
    rw [buildMip_mk (p := b.buildArgs x feats) (lims := lims) hlims hne]
    rfl

/-- **C106**, which limits raise: when the features are in order, the assignment of the point raises `IndexError` exactly if some
listed feature has a column number that is not smaller than the number of columns of the program; otherwise it succeeds. -/
theorem C106_index (hso : SetOrderOk ext) (hon : SetOrderOnce ext) (hlog : LogIncreasing ext) (hr : b.Reachable ext)
    (hreg : Placed ext b x) (hacc : FeaturesInOrder ext b x) :
    (PositionsExist ext b.aset x → (b.setX ext x).2 = .ok ()) ∧
    (¬ PositionsExist ext b.aset x → (b.setX ext x).2 = .error .index) := by
  refine ⟨fun hp => (C88_exact hso hon hlog hr hreg).mpr ⟨hacc, hp⟩, fun hp => ?_⟩
  have hb := hr.ok
  rw [setX_status, if_neg (not_not.mpr hacc.length)]
  obtain ⟨feats, hfs⟩ := buildInfo_total_any hso hb hlog hreg hacc
  rw [hfs, ok_bind]
  have hno := mt (positions_total hso hon hb hreg hfs b.backend).mp hp
  have hnull : ∀ is : List ℕ, (∃ vs, nullNames feats is = .ok vs) ∨ nullNames feats is = .error .index := by
    intro is
    induction is with
    | nil => exact Or.inl ⟨[], rfl⟩
    | cons i is ih =>
      unfold nullNames at ih ⊢
      rw [List.mapM_cons]
      cases hf : feats[i]? with
      | none => right; rfl
      | some f =>
        rcases ih with ⟨vs, h⟩ | h
        · left; rw [h]; exact ⟨_, rfl⟩
        · right; rw [h]; rfl
  have hlim : ∀ k : SubsetLimit, (∃ l, limitCons b.backend feats k = .ok l) ∨ limitCons b.backend feats k = .error .index := by
    intro k
    cases b.backend
    · unfold limitCons limitConsCpx
      rcases hnull k.indices with ⟨vs, h⟩ | h
      · left; dsimp only; rw [h]; exact ⟨_, rfl⟩
      · right; dsimp only; rw [h]; rfl
    · unfold limitCons limitConsPy
      rcases hnull k.indices with ⟨vs, h⟩ | h
      · left; dsimp only; rw [h]; exact ⟨_, rfl⟩
      · right; dsimp only; rw [h]; rfl
  have hall : ∀ ks : List SubsetLimit, (∃ ls, ks.mapM (limitCons b.backend feats) = .ok ls) ∨
      ks.mapM (limitCons b.backend feats) = .error .index := by
    intro ks
    induction ks with
    | nil => exact Or.inl ⟨[], rfl⟩
    | cons k ks ih =>
      rw [List.mapM_cons]
      rcases hlim k with ⟨l, h⟩ | h
      · rcases ih with ⟨ls, h'⟩ | h'
        · left; rw [h, h']; exact ⟨_, rfl⟩
        · right; rw [h, h']; rfl
      · right; rw [h]; rfl
  have herr := (hall b.aset.cons.items).resolve_left hno
  have hm : buildMip b.backend (b.buildArgs x feats) = .error .index := by
    revert herr
    cases b.backend
    · intro herr
      unfold buildMip buildCpx
      have : (b.buildArgs x feats).limits.mapM (limitConsCpx (b.buildArgs x feats).feats) = .error .index := herr
      dsimp only
      rw [this]; rfl
    · intro herr
      unfold buildMip buildPy
      have : (b.buildArgs x feats).limits.mapM (limitConsPy (b.buildArgs x feats).feats) = .error .index := herr
      dsimp only
      rw [this]; rfl
  rw [hm]; rfl

end Recourse
