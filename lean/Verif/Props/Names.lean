import Verif.Model.Names
import Verif.Lemmas.History
import Verif.Props.Assign
import Verif.Props.Atomic
import Verif.Lemmas.Regular

/-!
# C91: the programs handed to the solver are well formed
-/

set_option linter.unusedSectionVars false

namespace Recourse

/-! ## Numbers as strings -/

theorem fmtD_inj {i j : ℕ} (h : fmtD i = fmtD j) : i = j := by
  have h' := congrArg String.toList h
  unfold fmtD at h'
  rw [Nat.toList_repr, Nat.toList_repr] at h'
  have := congrArg (fun l => Nat.ofDigitChars 10 l 0) h'
  simpa [Nat.ofDigitChars_toDigits] using this

theorem fmtD_digits {j : ℕ} {c : Char} (h : c ∈ (fmtD j).toList) : c.isDigit = true := by
  unfold fmtD at h
  rw [Nat.toList_repr] at h
  exact Nat.isDigit_of_mem_toDigits (by decide) (by decide) h

/-- A number followed by a character that is not a digit can be read back. -/
theorem fmtD_prefix {i j : ℕ} {c : Char} {r s : List Char} (hc : c.isDigit = false)
    (h : (fmtD i).toList ++ c :: r = (fmtD j).toList ++ c :: s) : i = j ∧ r = s := by
  have key : ∀ (k : ℕ) (t : List Char), ((fmtD k).toList ++ c :: t).takeWhile Char.isDigit = (fmtD k).toList := by
    intro k t
    rw [List.takeWhile_append_of_pos (fun _ hx => fmtD_digits hx), List.takeWhile_cons]
    simp [hc]
  have h1 := congrArg (List.takeWhile Char.isDigit) h
  rw [key, key] at h1
  have hij := fmtD_inj (String.toList_inj.mp h1)
  subst hij
  exact ⟨rfl, by simpa using h⟩

/-- **C91**, names of variables: different variables have different names. -/
theorem C91_names {v v' : Var} (h : v.text = v'.text) : v = v' := by
  have h' := congrArg String.toList h
  cases v <;> cases v' <;> simp only [Var.text, String.toList_append] at h'
  case a.a i j =>
    obtain ⟨rfl, -⟩ := fmtD_prefix (c := ']') (r := []) (s := []) rfl (by simpa using h')
    rfl
  case c.c i j =>
    obtain ⟨rfl, -⟩ := fmtD_prefix (c := ']') (r := []) (s := []) rfl (by simpa using h')
    rfl
  case u.u i k j l =>
    obtain ⟨rfl, h2⟩ := fmtD_prefix (c := ']') (r := '[' :: (fmtD k).toList ++ [']'])
      (s := '[' :: (fmtD l).toList ++ [']']) rfl (by simpa using h')
    obtain ⟨rfl, -⟩ := fmtD_prefix (c := ']') (r := []) (s := []) rfl (by simpa using h2)
    rfl
  all_goals first | rfl | (exfalso; simp at h')

/-! ## Well-formed programs -/

variable {K : Type} [Field K] [LinearOrder K] [IsStrictOrderedRing K] [FloorRing K]

/-- The names of the declared variables. -/
def Mip.declared (m : Mip K) : List String := m.decls.map fun d => d.v.text

/-- The names mentioned by an expression are declared, and each is mentioned once. -/
def Mention (m : Mip K) (vs : List Var) : Prop := (vs.map Var.text).Nodup ∧ ∀ v ∈ vs, v.text ∈ m.declared

/-- What a solver requires of a program: the names of the variables differ, expressions mention declared variables,
each once, ranges are not empty, and the names by which item limits are changed belong to one constraint each. -/
structure Mip.WellFormed (m : Mip K) : Prop where
  names : m.declared.Nodup
  cons : ∀ c ∈ m.cons, Mention m (c.terms.map (·.1))
  sos : ∀ s ∈ m.sos, Mention m s
  obj : Mention m (m.obj.map (·.1))
  bounds : ∀ d ∈ m.decls, ∀ u ∈ d.ub, d.lb ≤ u
  maxItems : (m.cons.filter fun c => decide (c.name = .maxItems)).length = 1
  minItems : (m.cons.filter fun c => decide (c.name = .minItems)).length = 1

/-- The same without strings, and what later cuts need. -/
structure WFV (feats : List (Feat K)) (m : Mip K) : Prop where
  names : (m.decls.map (·.v)).Nodup
  cons : ∀ c ∈ m.cons, (c.terms.map (·.1)).Nodup ∧ ∀ v ∈ c.terms.map (·.1), v ∈ m.decls.map (·.v)
  sos : ∀ s ∈ m.sos, s.Nodup ∧ ∀ v ∈ s, v ∈ m.decls.map (·.v)
  obj : (m.obj.map (·.1)).Nodup ∧ ∀ v ∈ m.obj.map (·.1), v ∈ m.decls.map (·.v)
  bounds : ∀ d ∈ m.decls, ∀ u ∈ d.ub, d.lb ≤ u
  maxItems : (m.cons.filter fun c => decide (c.name = .maxItems)).length = 1
  minItems : (m.cons.filter fun c => decide (c.name = .minItems)).length = 1
  bin : ∀ d ∈ m.decls, ∀ j k, d.v = .u j k → d.ub = some 1
  has : ∀ f ∈ feats, ∀ k < f.actions.length, Var.u f.idx k ∈ m.decls.map (·.v)

theorem mention_of {m : Mip K} {vs : List Var} (h : vs.Nodup ∧ ∀ v ∈ vs, v ∈ m.decls.map (·.v)) : Mention m vs := by
  refine ⟨h.1.map fun _ _ => C91_names, fun v hv => ?_⟩
  obtain ⟨d, hd, rfl⟩ := List.mem_map.mp (h.2 v hv)
  exact List.mem_map.mpr ⟨d, hd, rfl⟩

theorem WFV.wellFormed {feats : List (Feat K)} {m : Mip K} (h : WFV feats m) : m.WellFormed where
  names := by
    have := h.names.map fun _ _ => C91_names
    rw [List.map_map] at this
    exact this
  cons := fun c hc => mention_of (h.cons c hc)
  sos := fun s hs => mention_of (h.sos s hs)
  obj := mention_of h.obj
  bounds := h.bounds
  maxItems := h.maxItems
  minItems := h.minItems

/-! ### A new program -/

theorem inds_nodup (f : Feat K) : f.inds.Nodup :=
  List.nodup_range.map fun _ _ h => (Var.u.inj h).2

theorem mem_inds {f : Feat K} {v : Var} : v ∈ f.inds ↔ ∃ k < f.actions.length, v = .u f.idx k := by
  unfold Feat.inds
  simp only [List.mem_map, List.mem_range]
  exact ⟨fun ⟨k, hk, h⟩ => ⟨k, hk, h.symm⟩, fun ⟨k, hk, h⟩ => ⟨k, hk, h.symm⟩⟩

theorem declU_v (f : Feat K) : (declU f).map (·.v) = f.inds := by
  unfold declU
  rw [List.map_map]
  exact List.map_id _

theorem inj_idx {feats : List (Feat K)} (hn : (feats.map (·.idx)).Nodup) {α : Type} {g : ℕ → α}
    (hg : Function.Injective g) : (feats.map fun f => g f.idx).Nodup := by
  have := hn.map hg
  rwa [List.map_map] at this

theorem flatMap_inds_nodup {feats : List (Feat K)} (hn : (feats.map (·.idx)).Nodup) : (feats.flatMap Feat.inds).Nodup := by
  rw [List.nodup_flatMap]
  refine ⟨fun f _ => inds_nodup f, ?_⟩
  have hn' : feats.Pairwise fun f g => f.idx ≠ g.idx := by
    rw [List.Nodup, List.pairwise_map] at hn; exact hn
  refine hn'.imp fun {f g} hfg => ?_
  intro v hv hv'
  obtain ⟨k, -, rfl⟩ := mem_inds.mp hv
  obtain ⟨l, -, h⟩ := mem_inds.mp hv'
  exact hfg (Var.u.inj h).1

/-- The variables of a new program. -/
def varList (ct : CostType) (feats : List (Feat K)) : List Var :=
  (feats.map fun f => Var.a f.idx) ++ feats.flatMap Feat.inds ++
    (if ct = .max then Var.maxCost :: feats.map fun f => Var.c f.idx else [])

theorem decls_vars (ct : CostType) (feats : List (Feat K)) :
    (feats.map declA ++ feats.flatMap declU ++ costDecls ct feats).map (·.v) = varList ct feats := by
  unfold varList costDecls
  rw [List.map_append, List.map_append, List.map_map, List.map_flatMap]
  congr 1
  · congr 1
    exact List.flatMap_congr fun f _ => declU_v f
  · cases ct <;> simp [declC, Function.comp_def]

theorem varList_nodup {ct : CostType} {feats : List (Feat K)} (hn : (feats.map (·.idx)).Nodup) :
    (varList ct feats).Nodup := by
  unfold varList
  rw [List.nodup_append, List.nodup_append]
  refine ⟨⟨inj_idx hn fun _ _ h => Var.a.inj h, flatMap_inds_nodup hn, ?_⟩, ?_, ?_⟩
  · intro v hv v' hv' he
    subst he
    obtain ⟨f, -, rfl⟩ := List.mem_map.mp hv
    obtain ⟨g, -, hv'⟩ := List.mem_flatMap.mp hv'
    obtain ⟨k, -, h⟩ := mem_inds.mp hv'
    cases h
  · split_ifs
    · rw [List.nodup_cons]
      refine ⟨by simp, inj_idx hn fun _ _ h => Var.c.inj h⟩
    · exact List.nodup_nil
  · intro v hv v' hv' he
    subst he
    have hv' : v = .maxCost ∨ ∃ j, v = .c j := by
      split_ifs at hv'
      · rcases List.mem_cons.mp hv' with h | h
        · exact .inl h
        · obtain ⟨f, -, rfl⟩ := List.mem_map.mp h
          exact .inr ⟨_, rfl⟩
      · cases hv'
    rcases List.mem_append.mp hv with h | h
    · obtain ⟨f, -, rfl⟩ := List.mem_map.mp h
      rcases hv' with h | ⟨j, h⟩ <;> cases h
    · obtain ⟨g, -, h⟩ := List.mem_flatMap.mp h
      obtain ⟨k, -, rfl⟩ := mem_inds.mp h
      rcases hv' with h | ⟨j, h⟩ <;> cases h

theorem mem_varList_a {ct : CostType} {feats : List (Feat K)} {f : Feat K} (hf : f ∈ feats) :
    Var.a f.idx ∈ varList ct feats :=
  List.mem_append_left _ (List.mem_append_left _ (List.mem_map.mpr ⟨f, hf, rfl⟩))

theorem mem_varList_u {ct : CostType} {feats : List (Feat K)} {f : Feat K} (hf : f ∈ feats) {k : ℕ}
    (hk : k < f.actions.length) : Var.u f.idx k ∈ varList ct feats :=
  List.mem_append_left _ (List.mem_append_right _ (List.mem_flatMap.mpr ⟨f, hf, mem_inds.mpr ⟨k, hk, rfl⟩⟩))

theorem mem_varList_c {feats : List (Feat K)} {f : Feat K} (hf : f ∈ feats) : Var.c f.idx ∈ varList .max feats :=
  List.mem_append_right _ (List.mem_cons_of_mem _ (List.mem_map.mpr ⟨f, hf, rfl⟩))

theorem mem_varList_max {feats : List (Feat K)} : Var.maxCost ∈ varList .max feats :=
  List.mem_append_right _ (by simp)

theorem zip_fst {f : Feat K} {l : List K} (h : l.length = f.actions.length) : (f.inds.zip l).map (·.1) = f.inds := by
  rw [List.map_fst_zip]
  rw [inds_length, h]

/-- What a constraint of a program must meet. -/
def ConOK (D : List Var) (c : LinCon K) : Prop := (c.terms.map (·.1)).Nodup ∧ ∀ v ∈ c.terms.map (·.1), v ∈ D

theorem pickLabel_ok {n : ℕ} {ct : CostType} {feats : List (Feat K)} (hok : FeatsOK n feats) (be : Backend) {c : LinCon K}
    (hc : c ∈ feats.flatMap (pickCons be)) : c.name = .other ∧ ConOK (varList ct feats) c := by
  obtain ⟨f, hf, hc⟩ := List.mem_flatMap.mp hc
  have h1 : ∀ v ∈ f.inds, v ∈ varList ct feats := by
    intro v hv
    obtain ⟨k, hk, rfl⟩ := mem_inds.mp hv
    exact mem_varList_u hf hk
  have h2 : Var.a f.idx ∉ f.inds := by
    intro h; obtain ⟨k, -, h⟩ := mem_inds.mp h; cases h
  have e1 : (f.inds.zip f.actions).map (·.1) = f.inds := zip_fst rfl
  have e2 : (f.inds.map fun v => (v, (1 : K))).map (·.1) = f.inds := by rw [List.map_map]; exact List.map_id _
  cases be
  · simp only [pickCons, pickConsCpx, List.mem_cons, List.not_mem_nil, or_false] at hc
    rcases hc with rfl | rfl
    · refine ⟨rfl, ?_⟩
      unfold ConOK
      dsimp only
      rw [List.map_cons, e1]
      exact ⟨List.nodup_cons.mpr ⟨h2, inds_nodup f⟩, by simpa using ⟨mem_varList_a hf, h1⟩⟩
    · refine ⟨rfl, ?_⟩
      unfold ConOK
      dsimp only
      rw [e2]
      exact ⟨inds_nodup f, h1⟩
  · simp only [pickCons, pickConsPy, List.mem_cons, List.not_mem_nil, or_false] at hc
    rcases hc with rfl | rfl
    · refine ⟨rfl, ?_⟩
      unfold ConOK
      dsimp only
      rw [List.map_append, e1]
      refine ⟨List.nodup_append.mpr ⟨inds_nodup f, by simp, ?_⟩, ?_⟩
      · intro v hv v' hv' he
        simp at hv'
        subst he hv'
        exact h2 hv
      · intro v hv
        rcases List.mem_append.mp hv with h | h
        · exact h1 v h
        · simp at h; subst h; exact mem_varList_a hf
    · refine ⟨rfl, ?_⟩
      unfold ConOK
      dsimp only
      rw [e2]
      exact ⟨inds_nodup f, h1⟩

theorem cost_ok {n : ℕ} {feats : List (Feat K)} (hok : FeatsOK n feats) (be : Backend) {c : LinCon K}
    (hc : c ∈ feats.flatMap (costCons be)) : c.name = .other ∧ ConOK (varList .max feats) c := by
  obtain ⟨f, hf, hc⟩ := List.mem_flatMap.mp hc
  have h1 : ∀ v ∈ f.inds, v ∈ varList .max feats := by
    intro v hv
    obtain ⟨k, hk, rfl⟩ := mem_inds.mp hv
    exact mem_varList_u hf hk
  have h2 : Var.c f.idx ∉ f.inds := by
    intro h; obtain ⟨k, -, h⟩ := mem_inds.mp h; cases h
  have e1 : (f.inds.zip f.costs).map (·.1) = f.inds := zip_fst (hok.len f hf).symm
  have hmax : ConOK (varList .max feats)
      ({ name := .other, terms := [(Var.maxCost, 1), (Var.c f.idx, -1)], sense := .ge, rhs := 0 } : LinCon K) := by
    refine ⟨by simp, ?_⟩
    intro v hv
    simp only [List.map_cons, List.map_nil, List.mem_cons, List.not_mem_nil, or_false] at hv
    rcases hv with rfl | rfl
    · exact mem_varList_max
    · exact mem_varList_c hf
  have hin : (Var.c f.idx :: f.inds).Nodup ∧ ∀ v ∈ Var.c f.idx :: f.inds, v ∈ varList .max feats :=
    ⟨List.nodup_cons.mpr ⟨h2, inds_nodup f⟩, by simpa using ⟨mem_varList_c hf, h1⟩⟩
  cases be
  · simp only [costCons, costConsCpx, List.mem_cons, List.not_mem_nil, or_false] at hc
    rcases hc with rfl | rfl
    · refine ⟨rfl, ?_⟩
      unfold ConOK
      dsimp only
      rw [List.map_cons, e1]
      exact hin
    · exact ⟨rfl, hmax⟩
  · simp only [costCons, costConsPy, List.mem_cons, List.not_mem_nil, or_false] at hc
    rcases hc with rfl | rfl
    · refine ⟨rfl, ?_⟩
      unfold ConOK
      dsimp only
      rw [List.map_cons, List.map_map]
      have : (f.inds.zip f.costs).map ((·.1) ∘ fun t => (t.1, -t.2)) = f.inds := e1
      rw [this]
      exact hin
    · exact ⟨rfl, hmax⟩

/-- Number of constraints for a subset limit. -/
def perLimit : Backend → ℕ
  | .cpx => 1
  | .pymip => 2

theorem limit_ok {n : ℕ} {ct : CostType} {feats : List (Feat K)} (hok : FeatsOK n feats) (be : Backend)
    {k : SubsetLimit} (hk : k.indices.Nodup) {l : List (LinCon K)} (hl : limitCons be feats k = .ok l) :
    l.length = perLimit be ∧ ∀ c ∈ l, c.name = .other ∧ ConOK (varList ct feats) c := by
  have key : ∀ vs, nullNames feats k.indices = .ok vs → vs.Nodup ∧ ∀ v ∈ vs, v ∈ varList ct feats := by
    intro vs hvs
    obtain ⟨fs, e1, rfl⟩ := nullNames_ok hvs
    have hmem : ∀ f ∈ fs, f ∈ feats := by
      intro f hf
      have : some f ∈ k.indices.map (feats[·]?) := by rw [e1]; exact List.mem_map.mpr ⟨f, hf, rfl⟩
      obtain ⟨i, -, hi⟩ := List.mem_map.mp this
      exact List.mem_of_getElem? hi
    constructor
    · have hnd : (fs.map (·.idx)).Nodup := by
        have hj : (k.indices.map (feats[·]?)).map (Option.map (·.idx)) = (fs.map (·.idx)).map some := by
          rw [e1]; simp [Function.comp_def]
        have hpw : (k.indices.map ((feats.map (·.idx))[·]?)).Nodup := by
          refine List.Nodup.map_on ?_ hk
          intro i hi j hj he
          have hsome : ∃ f, feats[i]? = some f := by
            have : feats[i]? ∈ fs.map some := by rw [← e1]; exact List.mem_map.mpr ⟨i, hi, rfl⟩
            obtain ⟨f, -, h⟩ := List.mem_map.mp this
            exact ⟨f, h.symm⟩
          obtain ⟨f, hf⟩ := hsome
          have hil : i < (feats.map (·.idx)).length := by
            rw [List.length_map]; exact (List.getElem?_eq_some_iff.mp hf).1
          exact (List.getElem?_inj hil hok.nodup).mp he
        have he : k.indices.map ((feats.map (·.idx))[·]?) = (fs.map (·.idx)).map some := by
          rw [← hj, List.map_map]
          exact List.map_congr_left fun i _ => by simp
        rw [he] at hpw
        exact hpw.of_map some
      have hnd' : fs.Pairwise fun f g => f.idx ≠ g.idx := by
        rw [List.Nodup, List.pairwise_map] at hnd; exact hnd
      rw [List.Nodup, List.pairwise_map]
      exact hnd'.imp fun {f g} h he => h (Var.u.inj he).1
    · intro v hv
      obtain ⟨f, hf, rfl⟩ := List.mem_map.mp hv
      exact mem_varList_u (hmem f hf) (hok.null f (hmem f hf))
  cases be
  · simp only [limitCons, limitConsCpx, bind_ok_iff] at hl
    obtain ⟨vs, hvs, hl⟩ := hl
    cases hl
    refine ⟨rfl, ?_⟩
    intro c hc
    simp only [List.mem_cons, List.not_mem_nil, or_false] at hc
    subst hc
    refine ⟨rfl, ?_⟩
    unfold ConOK
    dsimp only
    rw [List.map_map]
    have : vs.map ((·.1) ∘ fun v => (v, (-1 : K))) = vs := List.map_id _
    rw [this]
    exact key vs hvs
  · simp only [limitCons, limitConsPy, bind_ok_iff] at hl
    obtain ⟨vs, hvs, hl⟩ := hl
    cases hl
    refine ⟨rfl, ?_⟩
    intro c hc
    have : vs.map ((·.1) ∘ fun v => (v, (-1 : K))) = vs := List.map_id _
    simp only [List.mem_cons, List.not_mem_nil, or_false] at hc
    rcases hc with rfl | rfl <;> refine ⟨rfl, ?_⟩ <;> unfold ConOK <;> dsimp only <;> rw [List.map_map, this] <;>
      exact key vs hvs

theorem filter_other {l : List (LinCon K)} {nm : CName} (hn : nm ≠ .other) (h : ∀ c ∈ l, c.name = .other) :
    (l.filter fun c => decide (c.name = nm)) = [] := by
  rw [List.filter_eq_nil_iff]
  intro c hc
  rw [h c hc]
  simpa using Ne.symm hn

/-- New programs are well formed. -/
theorem buildMip_wf {n : ℕ} {be : Backend} {p : BuildArgs K} {m : Mip K} (hok : FeatsOK n p.feats)
    (hl : ∀ k ∈ p.limits, k.indices.Nodup) (h : buildMip be p = .ok m) : WFV p.feats m := by
  obtain ⟨lims, hlims, -, rfl⟩ := buildMip_ok h
  have hlim : ∀ c ∈ lims.flatten, c.name = .other ∧ ConOK (varList p.costType p.feats) c := by
    intro c hc
    obtain ⟨l, hl', hc⟩ := List.mem_flatten.mp hc
    obtain ⟨k, hk, hkl⟩ := mapM_ok_mem hlims hl'
    exact (limit_ok hok be (hl k hk) hkl).2 c hc
  have hcost : ∀ c ∈ (if p.costType = .max then p.feats.flatMap (costCons be) else []), c.name = .other ∧
      ConOK (varList p.costType p.feats) c := by
    intro c hc
    split_ifs at hc with hct
    · rw [hct]; exact cost_ok hok be hc
    · cases hc
  have hoff : ∀ l : List K, ((offVars p.feats).map fun v => (v, (1 : K))).map (·.1) = offVars p.feats := by
    intro _; rw [List.map_map]; exact List.map_id _
  have hoffok : (offVars p.feats).Nodup ∧ ∀ v ∈ offVars p.feats, v ∈ varList p.costType p.feats := by
    refine ⟨inj_idx hok.nodup fun _ _ h => (Var.u.inj h).1, ?_⟩
    intro v hv
    obtain ⟨f, hf, rfl⟩ := List.mem_map.mp hv
    exact mem_varList_u hf (by have := hok.two f hf; omega)
  have hcount : ∀ nm : CName, nm ≠ .other →
      ((scoreCon p.yDesired p.score p.feats :: p.feats.flatMap (pickCons be)
        ++ sizeCons p.feats (max p.minItems 1) p.maxItems ++ lims.flatten
        ++ (if p.costType = .max then p.feats.flatMap (costCons be) else [])).filter
          fun c => decide (c.name = nm)).length = 1 := by
    intro nm hnm
    rw [List.filter_append, List.filter_append, List.filter_append,
      filter_other hnm fun c hc => (hcost c hc).1, filter_other hnm fun c hc => (hlim c hc).1,
      filter_other hnm fun c hc => by
        rcases List.mem_cons.mp hc with rfl | hc
        · rfl
        · exact (pickLabel_ok (ct := p.costType) hok be hc).1]
    cases nm <;> simp [sizeCons] at hnm ⊢
  refine ⟨?_, ?_, ?_, ?_, ?_, hcount _ (by simp), hcount _ (by simp), ?_, ?_⟩
  · dsimp only; rw [decls_vars]; exact varList_nodup hok.nodup
  · dsimp only
    rw [decls_vars]
    intro c hc
    rcases List.mem_append.mp hc with hc | hc
    · rcases List.mem_append.mp hc with hc | hc
      · rcases List.mem_append.mp hc with hc | hc
        · rcases List.mem_cons.mp hc with rfl | hc
          · unfold scoreCon
            dsimp only
            rw [List.map_map]
            refine ⟨inj_idx hok.nodup fun _ _ h => Var.a.inj h, ?_⟩
            intro v hv
            obtain ⟨f, hf, rfl⟩ := List.mem_map.mp hv
            exact mem_varList_a hf
          · exact (pickLabel_ok hok be hc).2
        · simp only [sizeCons, List.mem_cons, List.not_mem_nil, or_false] at hc
          rcases hc with rfl | rfl <;> dsimp only <;> rw [hoff []] <;> exact hoffok
      · exact (hlim c hc).2
    · exact (hcost c hc).2
  · dsimp only
    rw [decls_vars]
    intro s hs
    obtain ⟨f, hf, rfl⟩ := List.mem_map.mp hs
    refine ⟨inds_nodup f, fun v hv => ?_⟩
    obtain ⟨k, hk, rfl⟩ := mem_inds.mp hv
    exact mem_varList_u hf hk
  · dsimp only
    rw [decls_vars]
    by_cases hct : p.costType = .max
    · rw [hct]
      unfold objective
      dsimp only
      rw [List.map_cons, List.map_map]
      constructor
      · rw [List.nodup_cons]
        exact ⟨by simp, inj_idx hok.nodup fun _ _ h => Var.c.inj h⟩
      · intro v hv
        rcases List.mem_cons.mp hv with rfl | hv
        · exact mem_varList_max
        · obtain ⟨f, hf, rfl⟩ := List.mem_map.mp hv
          exact mem_varList_c hf
    · have : objective p.costType p.feats = p.feats.flatMap fun f => f.inds.zip f.costs := by
        unfold objective
        cases hc : p.costType <;> simp_all
      rw [this, List.map_flatMap]
      have e : (p.feats.flatMap fun f => (f.inds.zip f.costs).map (·.1)) = p.feats.flatMap Feat.inds :=
        List.flatMap_congr fun f hf => zip_fst (hok.len f hf).symm
      rw [e]
      refine ⟨flatMap_inds_nodup hok.nodup, ?_⟩
      intro v hv
      obtain ⟨f, hf, hv⟩ := List.mem_flatMap.mp hv
      obtain ⟨k, hk, rfl⟩ := mem_inds.mp hv
      exact mem_varList_u hf hk
  · intro d hd u hu
    dsimp only at hd
    rcases List.mem_append.mp hd with hd | hd
    · rcases List.mem_append.mp hd with hd | hd
      · obtain ⟨f, hf, rfl⟩ := List.mem_map.mp hd
        simp only [declA, Option.mem_def, Option.some.injEq] at hu
        subst hu
        have hne : f.actions ≠ [] := by
          intro h0; have := hok.two f hf; rw [h0] at this; simp at this
        exact (npMin_le (npMin_mem hne)).trans (le_npMax (npMin_mem hne))
      · obtain ⟨f, hf, hd⟩ := List.mem_flatMap.mp hd
        obtain ⟨v, hv, rfl⟩ := List.mem_map.mp hd
        simp only [Option.mem_def, Option.some.injEq] at hu
        subst hu
        exact zero_le_one
    · unfold costDecls at hd
      cases hct : p.costType <;> rw [hct] at hd <;> simp [declC] at hd
      rcases hd with rfl | ⟨f, -, rfl⟩ <;> cases hu
  · intro d hd j k hv
    dsimp only at hd
    rcases List.mem_append.mp hd with hd | hd
    · rcases List.mem_append.mp hd with hd | hd
      · obtain ⟨f, hf, rfl⟩ := List.mem_map.mp hd
        cases hv
      · obtain ⟨f, hf, hd⟩ := List.mem_flatMap.mp hd
        obtain ⟨v, hv, rfl⟩ := List.mem_map.mp hd
        rfl
    · unfold costDecls at hd
      cases hct : p.costType <;> rw [hct] at hd <;> simp [declC] at hd
      rcases hd with rfl | ⟨f, -, rfl⟩ <;> cases hv
  · intro f hf k hk
    dsimp only
    rw [decls_vars]
    exact mem_varList_u hf hk

/-! ### Later programs -/

theorem WFV.cutAll {n : ℕ} {feats : List (Feat K)} {m : Mip K} (h : WFV feats m) (hok : FeatsOK n feats)
    (σ : Var → K) : WFV feats (cutAll feats σ m) := by
  unfold Recourse.cutAll
  dsimp only
  set on := (offVars feats).filter (isOn σ) with hon
  have hv : (m.decls.map fun d => if d.v ∈ on then { d with lb := 1 } else d).map (·.v) = m.decls.map (·.v) := by
    rw [List.map_map]
    refine List.map_congr_left fun d _ => ?_
    simp only [Function.comp]
    split_ifs <;> rfl
  have hu : ∀ v ∈ on, ∃ j k, v = Var.u j k := by
    intro v hv
    obtain ⟨f, -, rfl⟩ := List.mem_map.mp (List.mem_filter.mp hv).1
    exact ⟨_, _, rfl⟩
  refine ⟨by rw [hv]; exact h.names, by dsimp only; rw [hv]; exact h.cons, by dsimp only; rw [hv]; exact h.sos,
    by dsimp only; rw [hv]; exact h.obj, ?_, h.maxItems, h.minItems, ?_, by dsimp only; rw [hv]; exact h.has⟩
  · intro d' hd' u hu'
    obtain ⟨d, hd, rfl⟩ := List.mem_map.mp hd'
    split_ifs at hu' ⊢ with hm
    · obtain ⟨j, k, hjk⟩ := hu _ hm
      dsimp only at hu' ⊢
      rw [h.bin d hd j k hjk] at hu'
      cases hu'
      exact le_rfl
    · exact h.bounds d hd u hu'
  · intro d' hd' j k hjk
    obtain ⟨d, hd, rfl⟩ := List.mem_map.mp hd'
    split_ifs at hjk ⊢ with hm
    · exact h.bin d hd j k hjk
    · exact h.bin d hd j k hjk

theorem WFV.cutCombo {n : ℕ} {feats : List (Feat K)} {m : Mip K} (h : WFV feats m) (hok : FeatsOK n feats)
    (be : Backend) (σ : Var → K) : WFV feats (cutCombo be feats σ m) := by
  unfold Recourse.cutCombo
  have hc : ((comboCon (cutVars be feats) σ).terms.map (·.1)).Nodup ∧
      ∀ v ∈ (comboCon (cutVars be feats) σ).terms.map (·.1), v ∈ m.decls.map (·.v) := by
    have e : (comboCon (cutVars be feats) σ).terms.map (·.1) = cutVars be feats := by
      unfold comboCon; dsimp only; rw [List.map_map]; exact List.map_id _
    rw [e]
    cases be
    · refine ⟨?_, ?_⟩
      · have hn' : feats.Pairwise fun f g => f.idx ≠ g.idx := by
          have := hok.nodup; rw [List.Nodup, List.pairwise_map] at this; exact this
        unfold cutVars nullVars
        dsimp only
        rw [List.Nodup, List.pairwise_map]
        exact hn'.imp fun {f g} h he => h (Var.u.inj he).1
      · intro v hv
        obtain ⟨f, hf, rfl⟩ := List.mem_map.mp hv
        exact h.has f hf _ (hok.null f hf)
    · refine ⟨inj_idx hok.nodup fun _ _ h => (Var.u.inj h).1, ?_⟩
      intro v hv
      obtain ⟨f, hf, rfl⟩ := List.mem_map.mp hv
      exact h.has f hf _ (by have := hok.two f hf; omega)
  have hcnt : ∀ nm : CName, nm ≠ .other →
      ((m.cons ++ [comboCon (cutVars be feats) σ]).filter fun c => decide (c.name = nm)).length =
        (m.cons.filter fun c => decide (c.name = nm)).length := by
    intro nm hnm
    rw [List.filter_append, filter_other (l := [comboCon (cutVars be feats) σ]) hnm (by simp [comboCon]),
      List.append_nil]
  refine ⟨h.names, ?_, h.sos, h.obj, h.bounds, (hcnt _ (by simp)).trans h.maxItems,
    (hcnt _ (by simp)).trans h.minItems, h.bin, h.has⟩
  intro c hc'
  rcases List.mem_append.mp hc' with hc' | hc'
  · exact h.cons c hc'
  · simp only [List.mem_cons, List.not_mem_nil, or_false] at hc'
    subst hc'
    exact hc

theorem WFV.setRhs {feats : List (Feat K)} {m : Mip K} (h : WFV feats m) (nm : CName) (r : K) :
    WFV feats (m.setRhs nm r) := by
  unfold Mip.setRhs
  have hcnt : ∀ nm' : CName,
      ((m.cons.map fun c => if c.name = nm then { c with rhs := r } else c).filter
        fun c => decide (c.name = nm')).length = (m.cons.filter fun c => decide (c.name = nm')).length := by
    intro nm'
    rw [List.filter_map, List.length_map]
    congr 1
    refine List.filter_congr fun c _ => ?_
    simp only [Function.comp]
    split_ifs <;> rfl
  refine ⟨h.names, ?_, h.sos, h.obj, h.bounds, (hcnt _).trans h.maxItems, (hcnt _).trans h.minItems, h.bin, h.has⟩
  intro c' hc'
  obtain ⟨c, hc, rfl⟩ := List.mem_map.mp hc'
  split_ifs
  · exact h.cons c hc
  · exact h.cons c hc

/-- What holds of the builder at all times. -/
def ProgOK (b : Builder K) : Prop := ∀ m, b.mip = some m → FeatsOK b.coefs.length b.feats ∧ WFV b.feats m

theorem popLoop_inv {o : Oracle K} {et : EnumType} {I : Builder K → Prop} (hs : ∀ b, I b → I (b.solve o))
    (hrm : ∀ b σ, I b → I (b.removeSolution et σ)) {fuel : ℕ} {total : Option ℕ} {b b' : Builder K}
    {acc l : List (Info K)} (hI : I b) (h : b.popLoop o et fuel total acc = some (b', l)) : I b' := by
  induction fuel generalizing total b acc with
  | zero =>
    cases total with
    | none => simp [Builder.popLoop] at h
    | some n => cases n with
      | zero => simp only [Builder.popLoop, Option.some.injEq, Prod.mk.injEq] at h; rw [← h.1]; exact hI
      | succ n => simp [Builder.popLoop] at h
  | succ fuel ih =>
    have step : ∀ total' : Option ℕ, (match (b.solve o).reported with
        | none => some (b.solve o, acc)
        | some σ => Builder.popLoop o et fuel total' ((b.solve o).removeSolution et σ)
            (acc ++ [(b.solve o).solutionInfo])) = some (b', l) → I b' := by
      intro total' h
      cases hr : (b.solve o).reported with
      | none => rw [hr] at h; simp only [Option.some.injEq, Prod.mk.injEq] at h; rw [← h.1]; exact hs b hI
      | some σ =>
        rw [hr] at h
        exact ih (hrm _ σ (hs b hI)) h
    cases total with
    | none => exact step _ h
    | some n => cases n with
      | zero => simp only [Builder.popLoop, Option.some.injEq, Prod.mk.injEq] at h; rw [← h.1]; exact hI
      | succ n => exact step _ h

theorem ProgOK.solve {b : Builder K} (h : ProgOK b) (o : Oracle K) : ProgOK (b.solve o) := by
  have hs := SameFixed.solve o b
  intro m hm
  rw [(solve_fields o b).2.2.2.2.2.1] at hm
  rw [hs.coefs, hs.feats]
  exact h m hm

theorem ProgOK.remove {b : Builder K} (h : ProgOK b) (et : EnumType) (σ : Var → K) :
    ProgOK (b.removeSolution et σ) := by
  intro m hm
  cases et
  · unfold Builder.removeSolution at hm ⊢
    dsimp only at hm ⊢
    obtain ⟨m0, hm0, rfl⟩ := Option.map_eq_some_iff.mp hm
    obtain ⟨h1, h2⟩ := h m0 hm0
    exact ⟨h1, h2.cutAll h1 σ⟩
  · unfold Builder.removeSolution at hm ⊢
    dsimp only at hm ⊢
    obtain ⟨m0, hm0, rfl⟩ := Option.map_eq_some_iff.mp hm
    obtain ⟨h1, h2⟩ := h m0 hm0
    exact ⟨h1, h2.cutCombo h1 _ σ⟩

variable {ext : Ext K} {b : Builder K}

theorem Builder.Reachable.progOK (hso : SetOrderOk ext) (hr : b.Reachable ext) : ProgOK b := by
  induction hr with
  | @mk be ct A w t b hA h =>
    intro m hm
    unfold mkBuilder at h
    simp only [bind_ok_iff, pyAssert_ok_iff, decide_eq_true_eq] at h
    obtain ⟨_, -, h⟩ := h
    by_cases hk : A.alignmentKnown = true
    · rw [if_pos hk] at h
      cases h
      cases hm
    · rw [if_neg hk] at h
      obtain ⟨A', -, h⟩ := bind_ok_iff.mp h
      cases h
      cases hm
  | @setX b x hr ih =>
    rcases setX_cases ext b x with ⟨-, h2⟩ | ⟨-, er, -, h3⟩ | ⟨-, f, er, -, -, h4⟩ | ⟨-, f, m', hbi, hm', h4⟩
    · rw [h2]; exact ih
    · rw [h3]; exact ih
    · rw [h4]; exact ih
    · rw [h4]
      intro m hm
      cases hm
      have hok := buildInfo_ok hso hr.ok hbi
      refine ⟨hok, buildMip_wf (p := b.buildArgs x f) hok ?_ hm'⟩
      intro k hk
      exact ((hr.ok.aset.wf.cons k hk).ordered.imp fun h => ne_of_lt h)
  | @fit b b' o i hr h ih =>
    obtain ⟨-, rfl, -⟩ := fit_ok h
    exact ih.solve o
  | @populate b b' o et fuel total l hr h ih =>
    exact popLoop_inv (I := ProgOK) (fun b hb => ProgOK.solve hb o) (fun b σ hb => ProgOK.remove hb et σ) ih (populate_ok h).2.2
  | @limits b lo hi hr ih =>
    unfold Builder.setItemLimits
    cases lo with
    | none => exact ih
    | some lo =>
      cases hi with
      | none => exact ih
      | some hi =>
        dsimp only
        by_cases h1 : hi < lo
        · rw [if_pos h1]; exact ih
        · rw [if_neg h1]
          by_cases h2 : lo ≠ (b.minItems : Int)
          · rw [if_pos h2]
            cases hm : b.mip with
            | none => exact ih
            | some m =>
              obtain ⟨i1, i2⟩ := ih m hm
              dsimp only
              by_cases h3 : lo < 0
              · rw [if_pos h3]
                intro m' hm'
                cases hm'
                exact ⟨i1, i2.setRhs _ _⟩
              · rw [if_neg h3]
                by_cases h4 : hi ≠ (b.maxItems : Int)
                · rw [if_pos h4]
                  intro m' hm'
                  cases hm'
                  exact ⟨i1, (i2.setRhs _ _).setRhs _ _⟩
                · rw [if_neg h4]
                  intro m' hm'
                  cases hm'
                  exact ⟨i1, i2.setRhs _ _⟩
          · rw [if_neg h2]
            split_ifs <;> exact ih
  | @minItems b k hr ih =>
    obtain ⟨n, h⟩ := setMinItems_eq b k
    rw [h]; exact ih
  | @maxItems b k hr ih =>
    obtain ⟨n, h⟩ := setMaxItems_eq b k
    rw [h]; exact ih
  | user hr hA hn ih => exact ih

/-- **C91**: at any time in the life of a builder, the program it holds is well formed. -/
theorem C91_program (hso : SetOrderOk ext) (hr : b.Reachable ext) {m : Mip K} (hm : b.mip = some m) : m.WellFormed :=
  (hr.progOK hso m hm).2.wellFormed

/-! ## Names of constraints -/

/-- Constraints by their role. -/
inductive ConLabel
  | score | setA (j : ℕ) | pickA (j : ℕ) | maxItems | minItems | limit (id : String) | limLb (i : ℕ) | limUb (i : ℕ)
  | defCost (j : ℕ) | setMaxCost (j : ℕ)

/-- Their names. -/
def ConLabel.text (be : Backend) : ConLabel → String
  | .score => match be with | .cpx => "score" | .pymip => "flip_prediction"
  | .setA j => "set_a[" ++ fmtD j ++ "]"
  | .pickA j => match be with | .cpx => "pick_a[" ++ fmtD j ++ "]" | .pymip => "pick_a['" ++ fmtD j ++ "']"
  | .maxItems => "max_items"
  | .minItems => "min_items"
  | .limit id => "subset_limit_" ++ id
  | .limLb i => "constr_" ++ fmtD i ++ "_lb"
  | .limUb i => "constr_" ++ fmtD i ++ "_ub"
  | .defCost j => "def_cost[" ++ fmtD j ++ "]"
  | .setMaxCost j => "set_max_cost[" ++ fmtD j ++ "]"

theorem label_inj {be : Backend} {v v' : ConLabel} (h : v.text be = v'.text be) : v = v' := by
  have h' := congrArg String.toList h
  cases v <;> cases v' <;> cases be <;> simp only [ConLabel.text, String.toList_append] at h'
  case setA.setA.cpx i j =>
    obtain ⟨rfl, -⟩ := fmtD_prefix (c := ']') (r := []) (s := []) rfl (by simpa using h')
    rfl
  case setA.setA.pymip i j =>
    obtain ⟨rfl, -⟩ := fmtD_prefix (c := ']') (r := []) (s := []) rfl (by simpa using h')
    rfl
  case defCost.defCost.cpx i j =>
    obtain ⟨rfl, -⟩ := fmtD_prefix (c := ']') (r := []) (s := []) rfl (by simpa using h')
    rfl
  case defCost.defCost.pymip i j =>
    obtain ⟨rfl, -⟩ := fmtD_prefix (c := ']') (r := []) (s := []) rfl (by simpa using h')
    rfl
  case setMaxCost.setMaxCost.cpx i j =>
    obtain ⟨rfl, -⟩ := fmtD_prefix (c := ']') (r := []) (s := []) rfl (by simpa using h')
    rfl
  case setMaxCost.setMaxCost.pymip i j =>
    obtain ⟨rfl, -⟩ := fmtD_prefix (c := ']') (r := []) (s := []) rfl (by simpa using h')
    rfl
  case pickA.pickA.cpx i j =>
    obtain ⟨rfl, -⟩ := fmtD_prefix (c := ']') (r := []) (s := []) rfl (by simpa using h')
    rfl
  case pickA.pickA.pymip i j =>
    obtain ⟨rfl, -⟩ := fmtD_prefix (c := '\'') (r := [']']) (s := [']']) rfl (by simpa using h')
    rfl
  case limLb.limLb.cpx i j =>
    obtain ⟨rfl, -⟩ := fmtD_prefix (c := '_') (r := ['l', 'b']) (s := ['l', 'b']) rfl (by simpa using h')
    rfl
  case limLb.limLb.pymip i j =>
    obtain ⟨rfl, -⟩ := fmtD_prefix (c := '_') (r := ['l', 'b']) (s := ['l', 'b']) rfl (by simpa using h')
    rfl
  case limUb.limUb.cpx i j =>
    obtain ⟨rfl, -⟩ := fmtD_prefix (c := '_') (r := ['u', 'b']) (s := ['u', 'b']) rfl (by simpa using h')
    rfl
  case limUb.limUb.pymip i j =>
    obtain ⟨rfl, -⟩ := fmtD_prefix (c := '_') (r := ['u', 'b']) (s := ['u', 'b']) rfl (by simpa using h')
    rfl
  case limLb.limUb.cpx i j =>
    obtain ⟨-, h⟩ := fmtD_prefix (c := '_') (r := ['l', 'b']) (s := ['u', 'b']) rfl (by simpa using h')
    simp at h
  case limLb.limUb.pymip i j =>
    obtain ⟨-, h⟩ := fmtD_prefix (c := '_') (r := ['l', 'b']) (s := ['u', 'b']) rfl (by simpa using h')
    simp at h
  case limUb.limLb.cpx i j =>
    obtain ⟨-, h⟩ := fmtD_prefix (c := '_') (r := ['u', 'b']) (s := ['l', 'b']) rfl (by simpa using h')
    simp at h
  case limUb.limLb.pymip i j =>
    obtain ⟨-, h⟩ := fmtD_prefix (c := '_') (r := ['u', 'b']) (s := ['l', 'b']) rfl (by simpa using h')
    simp at h
  case limit.limit.cpx i j => rw [String.toList_inj.mp (List.append_cancel_left h')]
  case limit.limit.pymip i j => rw [String.toList_inj.mp (List.append_cancel_left h')]
  all_goals first | rfl | (exfalso; simp at h')

/-- The ids of the constraints of an action set differ at all times. -/
theorem ActionSet.Reachable.ids_nodup {A : ActionSet K} (h : A.Reachable ext) : A.cons.ids.Nodup := by
  have hy : ∀ {A A' : ActionSet K} {y : Int}, A.setYDesired y = .ok A' → A'.cons = A.cons := by
    intro A A' y h
    obtain ⟨-, ⟨-, rfl⟩ | ⟨-, -, rfl⟩ | ⟨-, -, rfl⟩⟩ := setYDesired_ok h <;> rfl
  induction h with
  | mk h => rw [(mkActionSet_spec h).2.2.2.2.2.2.1]; exact List.nodup_nil
  | align hr h ih => obtain ⟨h1, rfl⟩ := setAlignment_ok h; exact ih
  | setY hr h ih => rw [hy h]; exact ih
  | @addC A A' names lb ub id i hr h ih =>
    unfold ActionSet.addConstraint at h
    obtain ⟨⟨c, j⟩, hc, h⟩ := bind_ok_iff.mp h
    cases h
    have := (run_wf (CReq.add names lb ub id) (by rw [hr.wf.consNames]; exact hr.wf.cons) ih).2.2
    simp only [CReq.run, hc] at this
    exact this
  | @remC A A' id hr h ih =>
    unfold ActionSet.removeConstraint at h
    obtain ⟨c, hc, h⟩ := bind_ok_iff.mp h
    cases h
    obtain ⟨-, rfl⟩ := remove_ok hc
    exact ih.sublist (List.filter_sublist.map _)
  | @setAttr A attr v hr ih =>
    unfold ActionSet.setAttr
    split_ifs
    · split
      · exact ih
      · exact ih
    · split
      · split
        · rename_i h; dsimp only; rw [hy h]; exact ih
        · exact ih
      · exact ih
    · split
      · exact ih
      · exact ih
  | @setSlice A idx attr v hr ih =>
    unfold ActionSet.setSliceAttr
    split
    · exact ih
    · split_ifs
      · simp only
        split
        · exact ih
        · exact ih
      · exact ih
  | @setElem A n attr v hr ih =>
    unfold ActionSet.setElemAttr
    split
    · exact ih
    · split
      · exact ih
      · exact ih
  | updateGrid hr hj h ih => exact ih
  | percentile hr hj ih => exact ih
  | interp hr hj h ih => exact ih
  | touch rc hr ih => exact ih
  | @setItem A n e hr he hn ih =>
    unfold ActionSet.setItem
    dsimp only
    split_ifs
    · exact ih
    · exact ih

/-- Labels of the subset limits. -/
def limLabels (be : Backend) (limits : List SubsetLimit) : List ConLabel :=
  match be with
  | .cpx => limits.map fun c => .limit c.id
  | .pymip => (List.range limits.length).flatMap fun i => [.limLb i, .limUb i]

/-- The constraints of a program by their roles, in order. -/
def labels (be : Backend) (p : BuildArgs K) : List ConLabel :=
  .score :: p.feats.flatMap (fun f => [.setA f.idx, .pickA f.idx]) ++ [.maxItems, .minItems]
    ++ limLabels be p.limits
    ++ (if p.costType = .max then p.feats.flatMap fun f => [.defCost f.idx, .setMaxCost f.idx] else [])

theorem conNames_eq (be : Backend) (p : BuildArgs K) : conNames be p = (labels be p).map (ConLabel.text be) := by
  unfold conNames labels
  simp only [List.map_append, List.map_cons, List.map_flatMap, List.map_nil]
  congr 1
  · congr 1
    · congr 1
      cases be <;> rfl
    · cases be
      · have : (p.limits.zipIdx.flatMap fun c => limitNames .cpx c.2 c.1) =
            (p.limits.zipIdx.map Prod.fst).flatMap fun c => ["subset_limit_" ++ c.id] := by
          rw [List.flatMap_map]; rfl
        rw [this, zipIdx_map_fst]
        unfold limLabels
        rw [List.map_map, List.map_eq_flatMap]
        rfl
      · have : (p.limits.zipIdx.flatMap fun c => limitNames .pymip c.2 c.1) =
            (p.limits.zipIdx.map Prod.snd).flatMap fun i => ["constr_" ++ fmtD i ++ "_lb", "constr_" ++ fmtD i ++ "_ub"] := by
          rw [List.flatMap_map]; rfl
        rw [this, List.zipIdx_map_snd]
        unfold limLabels
        rw [List.map_flatMap, List.range_eq_range']
        rfl
  · split_ifs
    · rw [List.map_flatMap]; rfl
    · rfl

theorem pairs_nodup {l : List ℕ} (hl : l.Nodup) {g h : ℕ → ConLabel} (hg : Function.Injective g)
    (hh : Function.Injective h) (hgh : ∀ i j, g i ≠ h j) : (l.flatMap fun i => [g i, h i]).Nodup := by
  rw [List.nodup_flatMap]
  refine ⟨fun i _ => by simpa using hgh i i, hl.imp fun {i j} hij => ?_⟩
  intro v hv hv'
  simp only [List.mem_cons, List.not_mem_nil, or_false] at hv hv'
  rcases hv with rfl | rfl <;> rcases hv' with h' | h'
  · exact hij (hg h')
  · exact hgh _ _ h'
  · exact hgh _ _ h'.symm
  · exact hij (hh h')

theorem feats_flatMap {β : Type} (feats : List (Feat K)) (g : ℕ → List β) :
    (feats.flatMap fun f => g f.idx) = (feats.map (·.idx)).flatMap g := by rw [List.flatMap_map]

theorem labels_nodup {n : ℕ} {be : Backend} {p : BuildArgs K} (hok : FeatsOK n p.feats)
    (hid : (p.limits.map (·.id)).Nodup) : (labels be p).Nodup := by
  unfold labels
  have h1 : (p.feats.flatMap fun f => [ConLabel.setA f.idx, ConLabel.pickA f.idx]).Nodup := by
    rw [feats_flatMap p.feats fun i => [ConLabel.setA i, ConLabel.pickA i]]
    exact pairs_nodup hok.nodup (fun _ _ h => ConLabel.setA.inj h) (fun _ _ h => ConLabel.pickA.inj h)
      (fun _ _ h => by cases h)
  have h2 : (p.feats.flatMap fun f => [ConLabel.defCost f.idx, ConLabel.setMaxCost f.idx]).Nodup := by
    rw [feats_flatMap p.feats fun i => [ConLabel.defCost i, ConLabel.setMaxCost i]]
    exact pairs_nodup hok.nodup (fun _ _ h => ConLabel.defCost.inj h) (fun _ _ h => ConLabel.setMaxCost.inj h)
      (fun _ _ h => by cases h)
  have m1 : ∀ v ∈ p.feats.flatMap fun f => [ConLabel.setA f.idx, ConLabel.pickA f.idx],
      ∃ j, v = .setA j ∨ v = .pickA j := by
    intro v hv
    obtain ⟨f, -, hv⟩ := List.mem_flatMap.mp hv
    exact ⟨f.idx, by simpa using hv⟩
  have m2 : ∀ v ∈ (if p.costType = .max then
      p.feats.flatMap fun f => [ConLabel.defCost f.idx, ConLabel.setMaxCost f.idx] else []),
      ∃ j, v = .defCost j ∨ v = .setMaxCost j := by
    intro v hv
    split_ifs at hv
    · obtain ⟨f, -, hv⟩ := List.mem_flatMap.mp hv
      exact ⟨f.idx, by simpa using hv⟩
    · cases hv
  have h3 : (limLabels be p.limits).Nodup := by
    unfold limLabels
    cases be
    · have := hid.map (f := ConLabel.limit) fun _ _ h => ConLabel.limit.inj h
      rwa [List.map_map] at this
    · exact pairs_nodup List.nodup_range (fun _ _ h => ConLabel.limLb.inj h) (fun _ _ h => ConLabel.limUb.inj h)
        (fun _ _ h => by cases h)
  have m3 : ∀ v ∈ limLabels be p.limits, (∃ j, v = .limit j) ∨ ∃ i, v = .limLb i ∨ v = .limUb i := by
    intro v hv
    cases be
    · obtain ⟨c, -, rfl⟩ := List.mem_map.mp hv
      exact .inl ⟨_, rfl⟩
    · obtain ⟨i, -, hv⟩ := List.mem_flatMap.mp hv
      exact .inr ⟨i, by simpa using hv⟩
  rw [List.nodup_append, List.nodup_append, List.nodup_append]
  refine ⟨⟨⟨?_, by simp, ?_⟩, h3, ?_⟩, ?_, ?_⟩
  · rw [List.nodup_cons]
    refine ⟨fun h => ?_, h1⟩
    obtain ⟨j, h | h⟩ := m1 _ h <;> cases h
  · intro v hv v' hv' he
    subst he
    simp only [List.mem_cons, List.not_mem_nil, or_false] at hv'
    rcases List.mem_cons.mp hv with rfl | hv
    · rcases hv' with h | h <;> cases h
    · obtain ⟨j, rfl | rfl⟩ := m1 _ hv <;> rcases hv' with h | h <;> cases h
  · intro v hv v' hv' he
    subst he
    have m3' := m3 v hv'
    rcases List.mem_append.mp hv with hv | hv
    · rcases List.mem_cons.mp hv with rfl | hv
      · rcases m3' with ⟨j, h⟩ | ⟨j, h | h⟩ <;> cases h
      · obtain ⟨i, rfl | rfl⟩ := m1 _ hv <;> rcases m3' with ⟨j, h⟩ | ⟨j, h | h⟩ <;> cases h
    · simp only [List.mem_cons, List.not_mem_nil, or_false] at hv
      rcases hv with rfl | rfl <;> rcases m3' with ⟨j, h⟩ | ⟨j, h | h⟩ <;> cases h
  · split_ifs
    · exact h2
    · exact List.nodup_nil
  · intro v hv v' hv' he
    subst he
    obtain ⟨j', h'⟩ := m2 v hv'
    rcases List.mem_append.mp hv with hv | hv
    · rcases List.mem_append.mp hv with hv | hv
      · rcases List.mem_cons.mp hv with rfl | hv
        · rcases h' with h | h <;> cases h
        · obtain ⟨i, rfl | rfl⟩ := m1 _ hv <;> rcases h' with h | h <;> cases h
      · simp only [List.mem_cons, List.not_mem_nil, or_false] at hv
        rcases hv with rfl | rfl <;> rcases h' with h | h <;> cases h
    · rcases m3 v hv with ⟨j, rfl⟩ | ⟨j, rfl | rfl⟩ <;> rcases h' with h | h <;> cases h

/-- The part of the name that the program keeps. -/
def ConLabel.role : ConLabel → CName
  | .maxItems => .maxItems
  | .minItems => .minItems
  | _ => .other

theorem map_role_other {l : List (LinCon K)} {k : List ConLabel} (hl : l.length = k.length)
    (h1 : ∀ c ∈ l, c.name = .other) (h2 : ∀ c ∈ k, c.role = .other) : l.map (·.name) = k.map ConLabel.role := by
  have e1 : l.map (·.name) = List.replicate l.length CName.other := by
    rw [List.eq_replicate_iff]; refine ⟨by simp, ?_⟩
    intro b hb; obtain ⟨c, hc, rfl⟩ := List.mem_map.mp hb; exact h1 c hc
  have e2 : k.map ConLabel.role = List.replicate k.length CName.other := by
    rw [List.eq_replicate_iff]; refine ⟨by simp, ?_⟩
    intro b hb; obtain ⟨c, hc, rfl⟩ := List.mem_map.mp hb; exact h2 c hc
  rw [e1, e2, hl]

theorem flatten_length {k : ℕ} {L : List (List (LinCon K))} (h : ∀ l ∈ L, l.length = k) :
    L.flatten.length = L.length * k := by
  induction L with
  | nil => simp
  | cons a L ih =>
    rw [List.flatten_cons, List.length_append, ih fun l hl => h l (List.mem_cons_of_mem _ hl),
      h a (List.mem_cons_self ..), List.length_cons]
    ring

theorem pair_flatMap_length {α β : Type} (l : List α) (g : α → List β) (k : ℕ) (h : ∀ a ∈ l, (g a).length = k) :
    (l.flatMap g).length = l.length * k := by
  induction l with
  | nil => simp
  | cons a l ih =>
    rw [List.flatMap_cons, List.length_append, ih fun b hb => h b (List.mem_cons_of_mem _ hb),
      h a (List.mem_cons_self ..), List.length_cons]
    ring

theorem roles {n : ℕ} {be : Backend} {p : BuildArgs K} {m : Mip K} (hok : FeatsOK n p.feats)
    (hl : ∀ k ∈ p.limits, k.indices.Nodup) (h : buildMip be p = .ok m) :
    m.cons.map (·.name) = (labels be p).map ConLabel.role := by
  obtain ⟨lims, hlims, -, rfl⟩ := buildMip_ok h
  unfold labels
  simp only [List.map_append, List.map_cons]
  congr 1
  · congr 1
    · congr 1
      congr 1
      refine map_role_other ?_ (fun c hc => (pickLabel_ok (ct := p.costType) hok be hc).1) ?_
      · rw [pair_flatMap_length _ _ 2 (by intro f _; cases be <;> rfl),
          pair_flatMap_length _ _ 2 (by intro f _; rfl)]
      · intro c hc
        obtain ⟨f, -, hc⟩ := List.mem_flatMap.mp hc
        simp only [List.mem_cons, List.not_mem_nil, or_false] at hc
        rcases hc with rfl | rfl <;> rfl
    · have hlen : lims.length = p.limits.length := (mapM_ok_iff.mp hlims).length_eq.symm
      have hall : ∀ l ∈ lims, l.length = perLimit be ∧ ∀ c ∈ l, c.name = .other := by
        intro l hl'
        obtain ⟨k, hk, hkl⟩ := mapM_ok_mem hlims hl'
        obtain ⟨h1, h2⟩ := limit_ok (ct := p.costType) hok be (hl k hk) hkl
        exact ⟨h1, fun c hc => (h2 c hc).1⟩
      refine map_role_other ?_ ?_ ?_
      · rw [flatten_length fun l hl => (hall l hl).1, hlen]
        unfold limLabels
        cases be
        · simp [perLimit]
        · dsimp only
          rw [pair_flatMap_length _ _ 2 (by intro f _; rfl), List.length_range]
          rfl
      · intro c hc
        obtain ⟨l, hl', hc⟩ := List.mem_flatten.mp hc
        exact (hall l hl').2 c hc
      · intro c hc
        cases be
        · obtain ⟨k, -, rfl⟩ := List.mem_map.mp hc
          rfl
        · obtain ⟨i, -, hc⟩ := List.mem_flatMap.mp hc
          simp only [List.mem_cons, List.not_mem_nil, or_false] at hc
          rcases hc with rfl | rfl <;> rfl
  · split_ifs with hct
    · refine map_role_other ?_ (fun c hc => (cost_ok hok be hc).1) ?_
      · rw [pair_flatMap_length _ _ 2 (by intro f _; cases be <;> rfl),
          pair_flatMap_length _ _ 2 (by intro f _; rfl)]
      · intro c hc
        obtain ⟨f, -, hc⟩ := List.mem_flatMap.mp hc
        simp only [List.mem_cons, List.not_mem_nil, or_false] at hc
        rcases hc with rfl | rfl <;> rfl
    · rfl

/-- **C91**, names of constraints.  The constraints of a new program have different names; the one called
`max_items` (`min_items`) is the limit from above (below) on the number of changed features; and the weights of the
SOS sets differ. -/
theorem C91_constraints (hso : SetOrderOk ext) (hr : b.Reachable ext) {b1 : Builder K} {x : List K}
    (h : b.setX ext x = (b1, .ok ())) : ∃ m, b1.mip = some m ∧
      (conNames b.backend (b.buildArgs x b1.feats)).Nodup ∧
      (conNames b.backend (b.buildArgs x b1.feats)).length = m.cons.length ∧
      (∀ (i : ℕ) (c : LinCon K) (s : String), m.cons[i]? = some c →
        (conNames b.backend (b.buildArgs x b1.feats))[i]? = some s →
          (c.name = .maxItems ↔ s = "max_items") ∧ (c.name = .minItems ↔ s = "min_items")) ∧
      m.sos = (sosPairs (b.buildArgs x b1.feats)).map (fun s => s.map (·.1)) ∧
      ∀ s ∈ sosPairs (b.buildArgs x b1.feats), (s.map (·.2)).Nodup := by
  obtain ⟨feats, m, -, hbi, hm, rfl⟩ := setX_ok h
  have hok := buildInfo_ok hso hr.ok hbi
  have hids := hr.ok.aset.ids_nodup
  have hl : ∀ k ∈ (b.buildArgs x feats).limits, k.indices.Nodup := fun k hk =>
    (hr.ok.aset.wf.cons k hk).ordered.imp fun h => ne_of_lt h
  have hrole := roles (p := b.buildArgs x feats) hok hl hm
  have hlab := labels_nodup (be := b.backend) (p := b.buildArgs x feats) hok hids
  refine ⟨m, rfl, ?_, ?_, ?_, ?_, ?_⟩
  · dsimp only
    rw [conNames_eq]
    exact hlab.map fun _ _ => label_inj
  · have := congrArg List.length hrole
    dsimp only
    rw [conNames_eq, List.length_map]
    simpa using this.symm
  · intro i c s hc hs
    dsimp only at hs
    rw [conNames_eq, List.getElem?_map] at hs
    obtain ⟨lb, hlb, rfl⟩ := Option.map_eq_some_iff.mp hs
    have hr' := congrArg (fun l => l[i]?) hrole
    simp only [List.getElem?_map, hc, hlb, Option.map_some, Option.some.injEq] at hr'
    rw [hr']
    constructor
    · constructor
      · intro h; cases lb <;> first | rfl | cases h
      · intro h; rw [label_inj (v' := .maxItems) h]; rfl
    · constructor
      · intro h; cases lb <;> first | rfl | cases h
      · intro h; rw [label_inj (v' := .minItems) h]; rfl
  · obtain ⟨lims, -, -, rfl⟩ := buildMip_ok hm
    unfold sosPairs
    dsimp only
    rw [List.map_map]
    refine List.map_congr_left fun f hf => ?_
    exact (zip_fst rfl).symm
  · intro s hs
    obtain ⟨f, hf, rfl⟩ := List.mem_map.mp hs
    rw [List.map_snd_zip (by rw [inds_length])]
    exact hok.nodupA f hf

/-- Non-vacuity: a program with a subset limit, and the names of its variables and constraints. -/
example : ∀ be, ∃ b0 : Builder ℚ, exBuilderE be .max [[0, 0], [1, 1]] ["a", "b"]
      (fun A => (A.addConstraint ["a", "b"] 0 1 none).map (·.1)) [1, 1] (-1) = .ok b0 ∧
    (b0.setX exExt [0, 0]).2 = .ok () ∧
    (b0.setX exExt [0, 0]).1.mip.map Mip.declared = some ["a[0]", "a[1]", "u[0][0]", "u[0][1]", "u[1][0]", "u[1][1]",
      "max_cost", "c[0]", "c[1]"] ∧
    conNames be (b0.buildArgs [0, 0] (b0.setX exExt [0, 0]).1.feats) = match be with
      | .cpx => ["score", "set_a[0]", "pick_a[0]", "set_a[1]", "pick_a[1]", "max_items", "min_items",
          "subset_limit_0", "def_cost[0]", "set_max_cost[0]", "def_cost[1]", "set_max_cost[1]"]
      | .pymip => ["flip_prediction", "set_a[0]", "pick_a['0']", "set_a[1]", "pick_a['1']", "max_items", "min_items",
          "constr_0_lb", "constr_0_ub", "def_cost[0]", "set_max_cost[0]", "def_cost[1]", "set_max_cost[1]"] := by
  intro be; cases be <;> decide +kernel

end Recourse
