import Verif.Lemmas.Exec

/-!
# Subset limits in the program
-/

set_option linter.unusedSectionVars false

namespace Recourse

variable {K : Type} [Field K] [LinearOrder K] [IsStrictOrderedRing K] [FloorRing K]

variable {ext : Ext K} {b : Builder K} {x : List K}

theorem two_le_of_mem {l : List K} {u v : K} (hu : u ∈ l) (hv : v ∈ l) (h : u ≠ v) : 2 ≤ l.length := by
  by_contra hlt
  push Not at hlt
  cases l with
  | nil => simp at hu
  | cons c l =>
    cases l with
    | nil =>
      simp only [List.mem_singleton] at hu hv
      exact h (hu.trans hv.symm)
    | cons c' l => simp only [List.length_cons] at hlt; omega

theorem not_listed_iff {A : ActionSet K} {n : String} : n ∉ A.cons.flatNames ↔ ¬ Listed A n := by
  unfold Constraints.flatNames Listed; simp [List.mem_flatten]

theorem listed_iff {A : ActionSet K} {n : String} : n ∈ A.cons.flatNames ↔ Listed A n := by
  unfold Constraints.flatNames Listed; simp [List.mem_flatten]

theorem dictSetEntry_map_name {l : List (GridEntry K)} {g : GridEntry K} (h : g.name ∈ l.map (·.name)) :
    (dictSetEntry l g).map (·.name) = l.map (·.name) := by
  unfold dictSetEntry
  obtain ⟨c, hc, hcn⟩ := List.mem_map.mp h
  rw [if_pos (by rw [List.any_eq_true]; exact ⟨c, hc, by simpa using hcn⟩), List.map_map]
  apply List.map_congr_left
  intro d _
  simp only [Function.comp]
  split_ifs with hd
  · exact hd.symm
  · rfl

theorem dictSetEntry_prefix {P : List String} {l : List (GridEntry K)} {g : GridEntry K}
    (h : P <+: l.map (·.name)) : P <+: (dictSetEntry l g).map (·.name) := by
  by_cases hg : g.name ∈ l.map (·.name)
  · rw [dictSetEntry_map_name hg]; exact h
  · unfold dictSetEntry
    rw [if_neg]
    · rw [List.map_append]; exact h.trans (List.prefix_append _ _)
    · rw [List.any_eq_true]
      rintro ⟨c, hc, hcn⟩
      exact hg (List.mem_map.mpr ⟨c, hc, by simpa using hcn⟩)

theorem overrideLoop_prefix {A : ActionSet K} {ra : Bool} {P : List String} (ns : List String)
    {out out' : List (GridEntry K)} (hn : P <+: out.map (·.name))
    (h : A.overrideLoop ext x ra ns out = .ok out') : P <+: out'.map (·.name) := by
  induction ns generalizing out with
  | nil => unfold ActionSet.overrideLoop at h; cases h; exact hn
  | cons n ns ih =>
    unfold ActionSet.overrideLoop at h
    split at h
    · split at h
      · obtain ⟨g0, hg0, h⟩ := bind_ok_iff.mp h
        exact ih (dictSetEntry_prefix hn) h
      · cases h
    · cases h

/-- If the first `m` columns are compatible, the grid starts with them. -/
theorem grid_prefix_columns {A : ActionSet K} (hlen : A.elems.length = A.names.length) {out : List (GridEntry K)} {m : ℕ}
    (hc : ∀ (j : ℕ) (e : Elem K), j < m → A.elems[j]? = some e → e.compatible ≠ some false)
    (h : A.feasibleGrid ext x true true = .ok out) : A.names.take m <+: out.map (·.name) := by
  unfold ActionSet.feasibleGrid at h
  simp only [bind_ok_iff, pyAssert_ok_iff, decide_eq_true_eq] at h
  obtain ⟨_, hx, base, hbase, h⟩ := h
  simp only [Bool.not_true, Bool.false_or] at hbase
  have hall : ((A.cols x).take m).filter (fun p => p.2.1.compatTruthy) = (A.cols x).take m := by
    rw [List.filter_eq_self]
    intro p hp
    obtain ⟨j, hj⟩ := List.mem_iff_getElem?.mp hp
    have hjm : j < m := by
      have := (List.getElem?_eq_some_iff.mp hj).1
      rw [List.length_take] at this; omega
    rw [List.getElem?_take_of_lt hjm] at hj
    unfold ActionSet.cols at hj
    obtain ⟨-, hj⟩ := List.getElem?_zip_eq_some.mp hj
    obtain ⟨he, -⟩ := List.getElem?_zip_eq_some.mp hj
    have := hc j p.2.1 hjm he
    unfold Elem.compatTruthy
    cases h : p.2.1.compatible with
    | none => rfl
    | some b => cases b with
      | true => rfl
      | false => exact absurd h this
  have hcolnames : (A.cols x).map (·.1) = A.names := by
    unfold ActionSet.cols
    rw [← List.unzip_fst, List.unzip_zip_left]
    simp [hlen, hx]
  have hb : base.map (·.name) = ((A.cols x).filter fun p => p.2.1.compatTruthy).map (·.1) :=
    Forall2_map_eq (f := fun p : String × Elem K × K => p.1) (g := fun g : GridEntry K => g.name)
      (mapM_ok_iff.mp hbase) (fun p g hpg => gridEntry_name hpg)
  have hpre : A.names.take m <+: base.map (·.name) := by
    rw [hb, ← hcolnames, ← List.map_take]
    conv_rhs => rw [← List.take_append_drop m (A.cols x), List.filter_append, hall, List.map_append]
    exact List.prefix_append _ _
  split_ifs at h with hcons
  · exact overrideLoop_prefix _ hpre h
  · cases h; exact hpre

theorem grid_prefix {A : ActionSet K} (hr : A.Reachable ext) {out : List (GridEntry K)} {m : ℕ}
    (hc : ∀ (j : ℕ) (e : Elem K), j < m → A.elems[j]? = some e → e.compatible ≠ some false)
    (h : A.feasibleGrid ext x true true = .ok out) : A.names.take m <+: out.map (·.name) :=
  grid_prefix_columns hr.wf.length hc h

/-- A sublist that contains a prefix starts with it. -/
theorem prefix_of_sublist : ∀ {P l l' : List String}, l.Nodup → P <+: l → l'.Sublist l → (∀ p ∈ P, p ∈ l') →
    P <+: l'
  | [], _, _, _, _, _, _ => List.nil_prefix
  | p :: P, l, l', hn, hp, hs, hm => by
    obtain ⟨R, rfl⟩ := hp
    rw [List.cons_append] at hs hn
    obtain ⟨hpn, hn'⟩ := List.nodup_cons.mp hn
    cases hs with
    | cons _ hs => exact absurd (hs.subset (hm p List.mem_cons_self)) hpn
    | cons_cons _ hs =>
      rename_i l''
      rw [List.cons_prefix_cons]
      refine ⟨rfl, prefix_of_sublist hn' (List.prefix_append P R) hs ?_⟩
      intro q hq
      rcases List.mem_cons.mp (hm q (List.mem_cons_of_mem _ hq)) with rfl | h
      · exact absurd (List.mem_append_left _ hq) hpn
      · exact h

/-- If the first `m` columns can be used, the usable features start with them. -/
theorem feats_prefix (hso : SetOrderOk ext) (hb : BuilderOK ext b) {feats : List (Feat K)} {m : ℕ}
    (h : b.buildInfo ext x = .ok feats) (hu : ∀ j < m, UsableColumn b.aset x j) :
    b.aset.names.take m <+: feats.map (·.name) := by
  obtain ⟨h1, hxl, hspec, hall⟩ := buildInfo_spec hso hb h
  have hwf := hb.aset.wf
  have hcol : ∀ (j : ℕ) (e : Elem K), j < m → b.aset.elems[j]? = some e → ∃ n xj, b.aset.names[j]? = some n ∧
      x[j]? = some xj := by
    intro j e _ he
    have hjlt : j < b.aset.names.length := by rw [← hwf.length]; exact (List.getElem?_eq_some_iff.mp he).1
    exact ⟨_, _, List.getElem?_eq_getElem hjlt, List.getElem?_eq_getElem (by rw [hxl]; exact hjlt)⟩
  unfold Builder.buildInfo at h
  simp only [bind_ok_iff, pyAssert_ok_iff] at h
  obtain ⟨grid, hgrid, fs, hfs, _, hchk, h⟩ := h
  cases h
  have hnames : feats.map (·.name) = (grid.filter fun g => decide (2 ≤ g.acts.length)).map (·.name) :=
    Forall2_map_eq (f := fun g : GridEntry K => g.name) (g := fun f : Feat K => f.name)
      (mapM_ok_iff.mp hfs) fun g f hgf => by
        obtain ⟨_, _, -, -, -, -, h1, -⟩ := mkFeat_ok hgf
        exact h1
  obtain ⟨hnd, -, -⟩ := C20_feasible_grid hso hb.aset hgrid
  refine prefix_of_sublist hnd (grid_prefix hb.aset ?_ hgrid) ?_ ?_
  · intro j e hj he
    obtain ⟨n, xj, hn, hxj⟩ := hcol j e hj he
    exact (hu j hj n e xj hn he hxj).1
  · rw [hnames]; exact List.filter_sublist.map _
  · intro n hn
    obtain ⟨j, hj⟩ := List.mem_iff_getElem?.mp hn
    have hjm : j < m := by
      have := (List.getElem?_eq_some_iff.mp hj).1
      rw [List.length_take] at this; omega
    rw [List.getElem?_take_of_lt hjm] at hj
    have hjlt : j < b.aset.names.length := (List.getElem?_eq_some_iff.mp hj).1
    obtain ⟨e, he⟩ : ∃ e, b.aset.elems[j]? = some e :=
      ⟨_, List.getElem?_eq_getElem (by rw [hwf.length]; exact hjlt)⟩
    obtain ⟨xj, hxj⟩ : ∃ xj, x[j]? = some xj := ⟨_, List.getElem?_eq_getElem (by rw [hxl]; exact hjlt)⟩
    obtain ⟨hc, hfit, v, hv, hp, hd⟩ := hu j hjm n e xj hj he hxj
    have m1 : xj ∈ e.feasX xj (decide (n ∉ b.aset.cons.flatNames)) :=
      (mem_feasX fun _ => hfit).mpr ⟨Or.inl rfl, fun _ d _ => ⟨fun _ => le_rfl, fun _ => le_rfl⟩⟩
    have m2 : v ∈ e.feasX xj (decide (n ∉ b.aset.cons.flatNames)) := by
      refine (mem_feasX fun _ => hfit).mpr ⟨hp, ?_⟩
      intro hdr d hdm
      exact hd (not_listed_iff.mp (of_decide_eq_true hdr)) d hdm
    obtain ⟨f, hf, hfn, -⟩ := hall j n e xj hj he hxj (Or.inl hc) (two_le_of_mem m2 m1 hv)
    exact List.mem_map.mpr ⟨f, hf, hfn⟩

/-- For a listed feature at a nonnegative point, the nullifying position is the one that makes it zero. -/
theorem FeatSpec.null_iff {f : Feat K} {e : Elem K} {xj : K} {t : Table K} {T : List K}
    (h : FeatSpec ext b x f e xj t T) {n : ℕ} {feats : List (Feat K)} (hok : FeatsOK n feats)
    (hf : f ∈ feats) (hm : f.name ∈ b.aset.cons.flatNames) (hx : 0 ≤ xj) {κ : ℕ → ℕ}
    (hκ : κ f.idx < f.actions.length) : κ f.idx ≠ f.kNull ↔ xj + f.act κ ≠ 0 := by
  rw [not_iff_not]
  have hnd := hok.nodupA f hf
  have h2 := hok.two f hf
  have hnull : f.actions[f.kNull]? = some (-xj) := by
    rcases hx.lt_or_eq with hpos | h0
    · exact h.null.1 ⟨hm, hpos⟩
    · have : f.kNull = 0 := h.null.2 (by rintro ⟨-, hp⟩; exact absurd h0 hp.ne)
      rw [this, h.actions, ← h0]; simp
  obtain ⟨hl, hv⟩ := List.getElem?_eq_some_iff.mp hnull
  unfold Feat.act
  rw [List.getD_eq_getElem _ _ hκ]
  constructor
  · intro he
    have : f.actions[κ f.idx] = f.actions[f.kNull] := by congr 1
    rw [this, hv]; ring
  · intro he
    have : f.actions[κ f.idx] = f.actions[f.kNull] := by rw [hv]; linarith
    exact (hnd.getElem_inj_iff).mp this

/-- If subset limits apply, the program's limits are those of the specification. -/
theorem limits_iff (hso : SetOrderOk ext) (hb : BuilderOK ext b) {feats : List (Feat K)}
    (h : b.buildInfo ext x = .ok feats) (hla : LimitsApply b.aset x) {κ : ℕ → ℕ} (hκ : Choice feats κ) :
    (∀ k ∈ b.aset.cons.items, LimitOK feats κ k) ↔
      RespectsLimits b.aset x (actVec b.coefs.length feats κ) := by
  obtain ⟨-, hxl, hspec, -⟩ := buildInfo_spec hso hb h
  have h2 := buildInfo_ok hso hb h
  have hwf := hb.aset.wf
  unfold RespectsLimits
  refine forall₂_congr fun k hkm => ?_
  have hw := hwf.cons k hkm
  -- the features of the limit
  have hfeat : ∀ j ∈ k.indices, ∃ f, feats[j]? = some f ∧ b.aset.names[j]? = some f.name := by
    intro j hj
    have hjn : b.aset.names[j]? ∈ k.names.map some := by
      rw [hw.position]; exact List.mem_map.mpr ⟨j, hj, rfl⟩
    obtain ⟨n, hnk, hn⟩ := List.mem_map.mp hjn
    obtain ⟨-, hu⟩ := hla j n hn.symm ⟨k, hkm, hnk⟩
    have hp := feats_prefix hso hb h (m := j + 1) (fun i hi => hu i (by omega))
    have hlt : j < b.aset.names.length := (List.getElem?_eq_some_iff.mp hn.symm).1
    have hj' : (feats.map (·.name))[j]? = b.aset.names[j]? := by
      rw [← List.getElem?_take_of_lt (Nat.lt_succ_self j) (l := b.aset.names)]
      obtain ⟨R, hR⟩ := hp
      rw [← hR, List.getElem?_append_left (by rw [List.length_take]; omega)]
    rw [← hn, List.getElem?_map] at hj'
    obtain ⟨f, hf, hfn⟩ := Option.map_eq_some_iff.mp hj'
    exact ⟨f, hf, by rw [← hn, hfn]⟩
  have hcount : ∀ fs : List (Feat K), k.indices.map (feats[·]?) = fs.map some →
      fs.countP (fun f => decide (κ f.idx ≠ f.kNull))
        = numNonzero b.aset x (actVec b.coefs.length feats κ) k.names := by
    intro fs hfs
    unfold numNonzero
    have hnames : fs.map (·.name) = k.names := by
      have e1 : k.indices.map (fun j => (feats[j]?).map (·.name)) = fs.map (fun f => some f.name) := by
        have := congrArg (List.map (Option.map (fun f : Feat K => f.name))) hfs
        simpa [List.map_map, Function.comp_def] using this
      have e2 : k.indices.map (fun j => (feats[j]?).map (·.name)) = k.names.map some := by
        rw [hw.position]
        apply List.map_congr_left
        intro j hj
        obtain ⟨f, hf, hfn⟩ := hfeat j hj
        rw [hf, hfn]; rfl
      have e3 : (fs.map (·.name)).map some = k.names.map some := by
        rw [← e2, e1, List.map_map]; rfl
      exact List.map_injective_iff.mpr (Option.some_injective _) e3
    rw [← hnames, List.countP_map]
    apply List.countP_congr
    intro f hfm
    have hff : f ∈ feats := by
      have : some f ∈ k.indices.map (feats[·]?) := by rw [hfs]; exact List.mem_map.mpr ⟨f, hfm, rfl⟩
      obtain ⟨j, -, hj⟩ := List.mem_map.mp this
      exact List.mem_of_getElem? hj
    obtain ⟨e, xj, t, T, hs⟩ := hspec f hff
    have hfk : f.name ∈ k.names := by rw [← hnames]; exact List.mem_map.mpr ⟨f, hfm, rfl⟩
    have hfl : Listed b.aset f.name := ⟨k, hkm, hfk⟩
    have hni := hs.null_iff h2 hff (listed_iff.mpr hfl) ((hla f.idx f.name hs.name hfl).1 xj hs.val) (hκ f hff)
    have hix : b.aset.names.idxOf f.name = f.idx := by
      obtain ⟨hlt, hn⟩ := List.getElem?_eq_some_iff.mp hs.name
      rw [← hn]; exact hwf.distinct.idxOf_getElem _ hlt
    have hact : (actVec b.coefs.length feats κ)[f.idx]? = some (f.act κ) :=
      put_feat h2 (fun f => f.act κ) hff
    have hval : (vadd x (actVec b.coefs.length feats κ)).getD f.idx 0 = xj + f.act κ := by
      unfold vadd
      rw [List.getD_eq_getElem?_getD, List.getElem?_zipWith, hs.val, hact]; rfl
    simp only [Function.comp, decide_eq_true_eq]
    rw [hix, hval]
    exact hni
  constructor
  · rintro ⟨fs, hfs, hlo, hhi⟩
    rw [hcount fs hfs] at hlo hhi
    exact ⟨hlo, hhi⟩
  · rintro ⟨hlo, hhi⟩
    have hex : ∃ fs : List (Feat K), k.indices.map (feats[·]?) = fs.map some := by
      have : ∀ js : List ℕ, (∀ j ∈ js, j ∈ k.indices) → ∃ fs : List (Feat K), js.map (feats[·]?) = fs.map some := by
        intro js
        induction js with
        | nil => intro _; exact ⟨[], rfl⟩
        | cons j js ih =>
          intro hjs
          obtain ⟨fs, hfs⟩ := ih fun i hi => hjs i (List.mem_cons_of_mem _ hi)
          obtain ⟨f, hf, -⟩ := hfeat j (hjs j List.mem_cons_self)
          exact ⟨f :: fs, by rw [List.map_cons, List.map_cons, hfs, hf]⟩
      exact this _ fun j hj => hj
    obtain ⟨fs, hfs⟩ := hex
    refine ⟨fs, hfs, ?_, ?_⟩
    · rw [hcount fs hfs]; exact hlo
    · rw [hcount fs hfs]; exact hhi

end Recourse
