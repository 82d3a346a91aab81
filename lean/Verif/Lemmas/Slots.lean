import Verif.Lemmas.Exchange
import Verif.Lemmas.Enum

/-!
# Subset limits as the program enforces them

The columns of the program in its order, and what the limits count.
-/

set_option linter.unusedSectionVars false

namespace Recourse

variable {K : Type} [Field K] [LinearOrder K] [IsStrictOrderedRing K] [FloorRing K]

variable {ext : Ext K} {b : Builder K} {x : List K} {feats : List (Feat K)} {κ : ℕ → ℕ}

/-- Going through a Python set visits every name once. -/
def SetOrderOnce (ext : Ext K) : Prop := ∀ l, (ext.setOrder l).Nodup

theorem dictSetEntry_new {l : List (GridEntry K)} {g : GridEntry K} (h : g.name ∉ l.map (·.name)) :
    (dictSetEntry l g).map (·.name) = l.map (·.name) ++ [g.name] := by
  unfold dictSetEntry
  rw [if_neg]
  · rw [List.map_append]; rfl
  · rw [List.any_eq_true]
    rintro ⟨c, hc, hcn⟩
    exact h (List.mem_map.mpr ⟨c, hc, by simpa using hcn⟩)

theorem overrideLoop_names {A : ActionSet K} {ra : Bool} (ns : List String) (hnd : ns.Nodup)
    {out out' : List (GridEntry K)} (h : A.overrideLoop ext x ra ns out = .ok out') :
    out'.map (·.name) = out.map (·.name) ++ ns.filter fun n => decide (n ∉ out.map (·.name)) := by
  induction ns generalizing out with
  | nil => unfold ActionSet.overrideLoop at h; cases h; simp
  | cons n ns ih =>
    obtain ⟨hn, hnd⟩ := List.nodup_cons.mp hnd
    unfold ActionSet.overrideLoop at h
    split at h
    · split at h
      · obtain ⟨g0, hg0, h⟩ := bind_ok_iff.mp h
        have hname := gridEntry_name hg0
        have := ih hnd h
        by_cases hm : n ∈ out.map (·.name)
        · rw [this, dictSetEntry_map_name (by rw [hname]; exact hm), List.filter_cons_of_neg (by simpa using hm)]
        · rw [this, dictSetEntry_new (by rw [hname]; exact hm), hname, List.filter_cons_of_pos (by simpa using hm),
            List.append_assoc]
          congr 1
          rw [List.singleton_append]
          congr 1
          apply List.filter_congr
          intro c hc
          rw [decide_eq_decide]
          have : c ≠ n := fun hh => hn (hh ▸ hc)
          simp [this]
      · cases h
    · cases h

/-- The names in the grid, in order. -/
theorem grid_names (hso : SetOrderOk ext) (hon : SetOrderOnce ext) {A : ActionSet K} (hr : A.Reachable ext)
    {out : List (GridEntry K)} (h : A.feasibleGrid ext x true true = .ok out) : ∃ base : List String,
      base.Sublist A.names ∧
      (∀ (j : ℕ) (n : String) (e : Elem K), A.names[j]? = some n → A.elems[j]? = some e →
        (n ∈ base ↔ e.compatible ≠ some false)) ∧
      out.map (·.name) = base ++ (ext.setOrder A.cons.flatNames).filter fun n => decide (n ∉ base) := by
  have hwf := hr.wf
  unfold ActionSet.feasibleGrid at h
  simp only [bind_ok_iff, pyAssert_ok_iff, decide_eq_true_eq] at h
  obtain ⟨_, hx, base, hbase, h⟩ := h
  simp only [Bool.not_true, Bool.false_or] at hbase
  have hcolnames : (A.cols x).map (·.1) = A.names := by
    unfold ActionSet.cols
    rw [← List.unzip_fst, List.unzip_zip_left]
    simp [hwf.length, hx]
  have hb : base.map (·.name) = ((A.cols x).filter fun p => p.2.1.compatTruthy).map (·.1) :=
    Forall2_map_eq (f := fun p : String × Elem K × K => p.1) (g := fun g : GridEntry K => g.name)
      (mapM_ok_iff.mp hbase) (fun p g hpg => gridEntry_name hpg)
  have hcompat : ∀ e : Elem K, e.compatTruthy = true ↔ e.compatible ≠ some false := by
    intro e
    unfold Elem.compatTruthy
    cases e.compatible with
    | none => simp
    | some c => cases c <;> simp
  refine ⟨base.map (·.name), ?_, ?_, ?_⟩
  · rw [hb]
    conv_rhs => rw [← hcolnames]
    exact List.filter_sublist.map _
  · intro j n e hn he
    rw [hb, List.mem_map]
    have hjn : j < A.names.length := (List.getElem?_eq_some_iff.mp hn).1
    constructor
    · rintro ⟨p, hp, hpn⟩
      obtain ⟨hp, hc⟩ := List.mem_filter.mp hp
      obtain ⟨i, hi⟩ := List.mem_iff_getElem?.mp hp
      unfold ActionSet.cols at hi
      obtain ⟨h1, h2⟩ := List.getElem?_zip_eq_some.mp hi
      obtain ⟨h2, -⟩ := List.getElem?_zip_eq_some.mp h2
      have hij : i = j := by
        have hi' : i < A.names.length := (List.getElem?_eq_some_iff.mp h1).1
        rw [hpn, ← hn] at h1
        exact (hwf.distinct.getElem_inj_iff).mp (Option.some.inj (by
          rw [← List.getElem?_eq_getElem hi', ← List.getElem?_eq_getElem hjn]; exact h1))
      rw [hij, he] at h2
      obtain rfl := Option.some.inj h2
      exact (hcompat _).mp hc
    · intro hc
      have hjx : j < x.length := by rw [hx]; exact hjn
      refine ⟨(n, e, x[j]), List.mem_filter.mpr ⟨?_, (hcompat e).mpr hc⟩, rfl⟩
      apply List.mem_of_getElem? (i := j)
      unfold ActionSet.cols
      exact List.getElem?_zip_eq_some.mpr ⟨hn, List.getElem?_zip_eq_some.mpr ⟨he, List.getElem?_eq_getElem hjx⟩⟩
  · split_ifs at h with hcons
    · exact overrideLoop_names _ (hon _) h
    · cases h
      have h0 : A.cons.flatNames = [] := by
        unfold Constraints.flatNames
        have : A.cons.items = [] := List.length_eq_zero_iff.mp (by omega)
        rw [this]; rfl
      have : ext.setOrder A.cons.flatNames = [] := by
        rw [List.eq_nil_iff_forall_not_mem]
        intro n hn
        rw [hso, h0] at hn
        cases hn
      rw [this]; simp

theorem filter_mem_of_sublist : ∀ {l l' : List String}, l.Nodup → l'.Sublist l →
    l' = l.filter fun n => decide (n ∈ l') := by
  intro l l' hn hs
  induction hs with
  | slnil => rfl
  | cons a hs ih =>
    obtain ⟨ha, hn⟩ := List.nodup_cons.mp hn
    rw [List.filter_cons_of_neg]
    · exact ih hn
    · simp only [decide_eq_true_eq]
      exact fun hh => ha (hs.subset hh)
  | cons_cons a hs ih =>
    rename_i l1 l2
    obtain ⟨ha, hn⟩ := List.nodup_cons.mp hn
    rw [List.filter_cons_of_pos (by simp)]
    congr 1
    conv_lhs => rw [ih hn]
    apply List.filter_congr
    intro c hc
    have : c ≠ a := fun hh => ha (hh ▸ hc)
    simp [this]

theorem map_idxOf_self {l : List String} (h : l.Nodup) : l.map (fun n => l.idxOf n) = List.range l.length := by
  apply List.ext_getElem
  · simp
  · intro i h1 h2
    rw [List.getElem_map, List.getElem_range]
    exact h.idxOf_getElem _ _

theorem eq_of_increasing : ∀ {l m : List ℕ}, l.Pairwise (· < ·) → m.Pairwise (· < ·) → (∀ j, j ∈ l ↔ j ∈ m) → l = m := by
  intro l m hl hm h
  have hp : l.Perm m := (List.perm_ext_iff_of_nodup (hl.imp fun h => h.ne) (hm.imp fun h => h.ne)).mpr h
  exact hp.eq_of_pairwise (fun a c _ _ h1 h2 => absurd h1 (not_lt.mpr h2.le)) hl hm

/-- A usable feature has a change to offer. -/
theorem FeatSpec.hasChange (hb : BuilderOK ext b) {f : Feat K} {e : Elem K} {xj : K} {t : Table K} {T : List K}
    (hs : FeatSpec ext b x f e xj t T) (h2 : 2 ≤ f.actions.length) : HasChange b.aset x f.idx := by
  obtain ⟨v, hv, hp, hk, -, -, -⟩ := hs.offered hb (k := 1) (by omega) (by omega)
  exact ⟨f.name, e, xj, v, hs.name, hs.elem, hs.val, hv, hp, fun hl =>
    hk (decide_eq_true (fun hh => hl (listed_iff.mp hh)))⟩

open Classical in
/-- The columns of the program are the usable features, in order. -/
theorem programColumns_eq (hso : SetOrderOk ext) (hon : SetOrderOnce ext) (hb : BuilderOK ext b)
    (hfits : ∀ (j : ℕ) (e : Elem K) (xj : K), b.aset.elems[j]? = some e → x[j]? = some xj →
      e.actionable = true → FitsGrid e xj)
    (h : b.buildInfo ext x = .ok feats) : programColumns ext b.aset x = feats.map (·.idx) := by
  have h' := h
  have hok := buildInfo_ok hso hb h
  obtain ⟨hnd, hxl, hspec, hcov⟩ := buildInfo_spec hso hb h
  have hwf := hb.aset.wf
  unfold Builder.buildInfo at h
  simp only [bind_ok_iff, pyAssert_ok_iff] at h
  obtain ⟨grid, hgrid, fs, hfs, _, hchk, h⟩ := h
  cases h
  have hnames : feats.map (·.name) = (grid.filter fun g => decide (2 ≤ g.acts.length)).map (·.name) :=
    Forall2_map_eq (f := fun g : GridEntry K => g.name) (g := fun f : Feat K => f.name)
      (mapM_ok_iff.mp hfs) fun g f hgf => by
        obtain ⟨_, _, -, -, -, -, h1, -⟩ := mkFeat_ok hgf
        exact h1
  obtain ⟨hgn, -, -⟩ := C20_feasible_grid hso hb.aset hgrid
  obtain ⟨base, hsub, hbase, hgnames⟩ := grid_names hso hon hb.aset hgrid
  -- membership of a column
  have hidx : ∀ (j : ℕ) (n : String), b.aset.names[j]? = some n → b.aset.names.idxOf n = j := by
    intro j n hn
    obtain ⟨hlt, hn⟩ := List.getElem?_eq_some_iff.mp hn
    rw [← hn]; exact hwf.distinct.idxOf_getElem _ hlt
  have hmem : ∀ (j : ℕ) (n : String) (e : Elem K), b.aset.names[j]? = some n → b.aset.elems[j]? = some e →
      (n ∈ feats.map (·.name) ↔ (e.compatible ≠ some false ∨ Listed b.aset n) ∧ HasChange b.aset x j) := by
    intro j n e hn he
    constructor
    · intro hm
      obtain ⟨f, hf, rfl⟩ := List.mem_map.mp hm
      obtain ⟨e', xj, t, T, hs⟩ := hspec f hf
      have hj : f.idx = j := by rw [← hidx j _ hn, hidx f.idx _ hs.name]
      subst hj
      have q1 := hs.elem; rw [he] at q1; obtain rfl := Option.some.inj q1
      exact ⟨hs.usable.imp id listed_iff.mp, hs.hasChange hb (hok.two f hf)⟩
    · rintro ⟨hu, n', e', xj, v, hn', he', hxj, hv, hp, hd⟩
      rw [hn] at hn'; obtain rfl := Option.some.inj hn'
      rw [he] at he'; obtain rfl := Option.some.inj he'
      have hfit := hfits j e xj he hxj
      obtain ⟨f, hf, hfn, -⟩ := hcov j n e xj hn he hxj (hu.imp id listed_iff.mpr)
        (two_le_of_mem ((mem_feasX hfit).mpr ⟨hp, fun hdr d hdm => hd (not_listed_iff.mp (of_decide_eq_true hdr)) d hdm⟩)
          ((mem_feasX hfit).mpr ⟨Or.inl rfl, fun _ _ _ => ⟨fun _ => le_refl _, fun _ => le_refl _⟩⟩) hv)
      exact List.mem_map.mpr ⟨f, hf, hfn⟩
  have hcomp : ∀ (j : ℕ) (n : String) (e : Elem K), b.aset.names[j]? = some n → b.aset.elems[j]? = some e →
      (CompatibleColumn b.aset j ↔ e.compatible ≠ some false) := by
    intro j n e _ he
    constructor
    · intro hc; exact hc e he
    · intro hc e' he'
      rw [he] at he'; obtain rfl := Option.some.inj he'
      exact hc
  have helem : ∀ (j : ℕ) (n : String), b.aset.names[j]? = some n → ∃ e, b.aset.elems[j]? = some e := fun j n hn =>
    ⟨_, List.getElem?_eq_getElem (by rw [hwf.length]; exact (List.getElem?_eq_some_iff.mp hn).1)⟩
  -- the features in order
  have hfe : feats.map (·.name) = (grid.map (·.name)).filter fun n => decide (n ∈ feats.map (·.name)) := by
    refine filter_mem_of_sublist hgn ?_
    conv_lhs => rw [hnames]
    exact List.filter_sublist.map _
  have hfi : feats.map (·.idx) = (feats.map (·.name)).map fun n => b.aset.names.idxOf n := by
    rw [List.map_map]
    apply List.map_congr_left
    intro f hf
    obtain ⟨e, xj, t, T, hs⟩ := hspec f hf
    exact (hidx _ _ hs.name).symm
  rw [hfi, hfe, hgnames, List.filter_append, List.map_append]
  unfold programColumns
  congr 1
  · apply eq_of_increasing
    · exact List.pairwise_lt_range.filter _
    · have hs : ((base.filter fun n => decide (n ∈ feats.map (·.name))).map fun n => b.aset.names.idxOf n).Sublist
          (List.range b.aset.names.length) := by
        rw [← map_idxOf_self hwf.distinct]
        exact (List.filter_sublist.trans hsub).map _
      exact List.pairwise_lt_range.sublist hs
    · intro j
      rw [List.mem_filter, List.mem_range, decide_eq_true_eq, List.mem_map]
      constructor
      · rintro ⟨hj, hc, hch⟩
        have hn := List.getElem?_eq_getElem hj
        obtain ⟨e, he⟩ := helem j _ hn
        have hc' := (hcomp j _ e hn he).mp hc
        exact ⟨_, List.mem_filter.mpr ⟨(hbase j _ e hn he).mpr hc', decide_eq_true ((hmem j _ e hn he).mpr ⟨Or.inl hc', hch⟩)⟩,
          hidx j _ hn⟩
      · rintro ⟨n, hnm, hnj⟩
        obtain ⟨hnb, hnf⟩ := List.mem_filter.mp hnm
        have hnn := hsub.subset hnb
        have hj : j < b.aset.names.length := by rw [← hnj]; exact List.idxOf_lt_length_iff.mpr hnn
        have hn : b.aset.names[j]? = some n := by rw [← hnj]; exact List.getElem?_idxOf hnn
        obtain ⟨e, he⟩ := helem j _ hn
        exact ⟨hj, (hcomp j n e hn he).mpr ((hbase j n e hn he).mp hnb), ((hmem j n e hn he).mp (of_decide_eq_true hnf)).2⟩
  · rw [List.filter_map, List.filter_filter]
    congr 1
    apply List.filter_congr
    intro n hn
    have hl : Listed b.aset n := listed_iff.mp ((hso _ _).mp hn)
    obtain ⟨k, hk, hnk⟩ := id hl
    have hn : b.aset.names[b.aset.names.idxOf n]? = some n := List.getElem?_idxOf ((hwf.cons k hk).known n hnk)
    obtain ⟨e, he⟩ := helem _ _ hn
    rw [← Bool.decide_and]
    simp only [Function.comp, decide_eq_decide]
    rw [hcomp _ n e hn he, hbase _ n e hn he, hmem _ n e hn he]
    tauto

/-- At the nullifying position a feature is at rest. -/
theorem FeatSpec.rest_iff {f : Feat K} {e : Elem K} {xj : K} {t : Table K} {T : List K}
    (h : FeatSpec ext b x f e xj t T) (hok : FeatsOK b.coefs.length feats) (hf : f ∈ feats) (hκ : Choice feats κ) :
    κ f.idx = f.kNull ↔ AtRest b.aset x (actVec b.coefs.length feats κ) f.idx := by
  have hact : (actVec b.coefs.length feats κ)[f.idx]? = some (f.act κ) := put_feat hok (fun f => f.act κ) hf
  have key : AtRest b.aset x (actVec b.coefs.length feats κ) f.idx ↔
      (Listed b.aset f.name ∧ 0 < xj → xj + f.act κ = 0) ∧ (¬ (Listed b.aset f.name ∧ 0 < xj) → f.act κ = 0) := by
    constructor
    · rintro ⟨n, xj', aj, h1, h2, h3, h4⟩
      rw [h.name] at h1; obtain rfl := Option.some.inj h1
      rw [h.val] at h2; obtain rfl := Option.some.inj h2
      rw [hact] at h3; obtain rfl := Option.some.inj h3
      exact h4
    · intro h4; exact ⟨_, _, _, h.name, h.val, hact, h4⟩
  rw [key]
  by_cases hl : Listed b.aset f.name ∧ 0 < xj
  · have := h.null_iff hok hf (listed_iff.mpr hl.1) hl.2.le (hκ f hf)
    rw [not_iff_not.mp this]
    exact ⟨fun h => ⟨fun _ => h, fun hh => absurd hl hh⟩, fun h => h.1 hl⟩
  · have h0 := h.null.2 (by rw [listed_iff]; exact hl)
    rw [h0, ← hok.act_zero hf hκ]
    exact ⟨fun h => ⟨fun hh => absurd hh hl, fun _ => h⟩, fun h => h.2 hl⟩

theorem limit_indices {k : SubsetLimit} {names : List String} (hn : names.Nodup) (hw : k.WF names) :
    k.indices = k.names.map fun n => names.idxOf n := by
  have hp := hw.position
  have : ∀ (is : List ℕ) (ns : List String), ns.map some = is.map (names[·]?) → is = ns.map fun n => names.idxOf n := by
    intro is
    induction is with
    | nil => intro ns h; cases ns with
      | nil => rfl
      | cons => simp at h
    | cons i is ih => intro ns h; cases ns with
      | nil => simp at h
      | cons n ns =>
        simp only [List.map_cons, List.cons.injEq] at h
        rw [List.map_cons, ← ih ns h.2]
        congr 1
        obtain ⟨hlt, hi⟩ := List.getElem?_eq_some_iff.mp h.1.symm
        rw [← hi]; exact (hn.idxOf_getElem _ hlt).symm
  exact this _ _ hp

theorem countP_along {α β : Type} {g : α → Option β} {P : α → Bool} {Q : β → Bool}
    (hPQ : ∀ a c, g a = some c → (P a = true ↔ Q c = true)) : ∀ {l : List α} {m : List β}, l.map g = m.map some →
    m.countP Q = l.countP P
  | [], [], _ => rfl
  | [], _ :: _, h => by simp at h
  | _ :: _, [], h => by simp at h
  | a :: l, c :: m, h => by
    simp only [List.map_cons, List.cons.injEq] at h
    rw [List.countP_cons, List.countP_cons, countP_along hPQ h.2]
    have := hPQ a c h.1
    by_cases hp : P a = true
    · rw [if_pos hp, if_pos (this.mp hp)]
    · rw [if_neg hp, if_neg (fun hh => hp (this.mpr hh))]

open Classical in
/-- The subset limits of the program, in terms of the specification. -/
theorem positions_iff (hso : SetOrderOk ext) (hon : SetOrderOnce ext) (hb : BuilderOK ext b)
    (hfits : ∀ (j : ℕ) (e : Elem K) (xj : K), b.aset.elems[j]? = some e → x[j]? = some xj →
      e.actionable = true → FitsGrid e xj)
    (h : b.buildInfo ext x = .ok feats) (hκ : Choice feats κ) :
    (∀ k ∈ b.aset.cons.items, LimitOK feats κ k) ↔
      PositionsExist ext b.aset x ∧ RespectsPositions ext b.aset x (actVec b.coefs.length feats κ) := by
  have hok := buildInfo_ok hso hb h
  obtain ⟨-, hxl, hspec, -⟩ := buildInfo_spec hso hb h
  have hwf := hb.aset.wf
  have hpc := programColumns_eq hso hon hb hfits h
  unfold PositionsExist RespectsPositions
  rw [← forall₂_and]
  refine forall₂_congr fun k hkm => ?_
  have hind := limit_indices hwf.distinct (hwf.cons k hkm)
  have hcount : ∀ fs : List (Feat K), k.indices.map (feats[·]?) = fs.map some →
      fs.countP (fun f => decide (κ f.idx ≠ f.kNull))
        = numMoved ext b.aset x (actVec b.coefs.length feats κ) k.names := by
    intro fs hfs
    unfold numMoved
    rw [hind, List.map_map] at hfs
    refine countP_along ?_ hfs
    intro n f hf
    simp only [Function.comp] at hf
    rw [decide_eq_true_eq, decide_eq_true_eq, hpc, List.getElem?_map, hf]
    have hfm := List.mem_of_getElem? hf
    obtain ⟨e, xj, t, T, hs⟩ := hspec f hfm
    rw [ne_eq, hs.rest_iff hok hfm hκ]
    simp
  constructor
  · rintro ⟨fs, hfs, hlo, hhi⟩
    rw [hcount fs hfs] at hlo hhi
    refine ⟨fun n hn => ?_, hlo, hhi⟩
    rw [hpc, List.length_map]
    have : feats[b.aset.names.idxOf n]? ∈ k.indices.map (feats[·]?) := by
      rw [hind, List.map_map]; exact List.mem_map.mpr ⟨n, hn, rfl⟩
    rw [hfs] at this
    obtain ⟨f, -, hf⟩ := List.mem_map.mp this
    exact (List.getElem?_eq_some_iff.mp hf.symm).1
  · rintro ⟨hex, hlo, hhi⟩
    have hall : ∀ ns : List String, (∀ n ∈ ns, n ∈ k.names) → ∃ fs : List (Feat K),
        (ns.map fun n => b.aset.names.idxOf n).map (feats[·]?) = fs.map some := by
      intro ns
      induction ns with
      | nil => intro _; exact ⟨[], rfl⟩
      | cons n ns ih =>
        intro hns
        obtain ⟨fs, hfs⟩ := ih fun i hi => hns i (List.mem_cons_of_mem _ hi)
        have hlt := hex n (hns n List.mem_cons_self)
        rw [hpc, List.length_map] at hlt
        exact ⟨feats[b.aset.names.idxOf n] :: fs, by
          rw [List.map_cons, List.map_cons, List.map_cons, hfs, List.getElem?_eq_getElem hlt]⟩
    obtain ⟨fs, hfs⟩ := hall k.names fun n hn => hn
    rw [← hind] at hfs
    exact ⟨fs, hfs, by rw [hcount fs hfs]; exact hlo, by rw [hcount fs hfs]; exact hhi⟩

end Recourse
