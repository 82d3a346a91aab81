import Verif.Lemmas.Put

/-! # Histories of builders -/

set_option linter.unusedSectionVars false

namespace Recourse

variable {K : Type} [Field K] [LinearOrder K] [IsStrictOrderedRing K] [FloorRing K]

theorem solve_fields (o : Oracle K) (b : Builder K) :
    (b.solve o).backend = b.backend ∧ (b.solve o).coefs = b.coefs ∧ (b.solve o).aset = b.aset ∧
    (b.solve o).varNames = b.varNames ∧ (b.solve o).costType = b.costType ∧ (b.solve o).mip = b.mip ∧
    (b.solve o).feats = b.feats ∧ (b.solve o).intercept = b.intercept ∧
    (b.solve o).minItems = b.minItems ∧ (b.solve o).maxItems = b.maxItems ∧
    (b.solve o).actionableIdx = b.actionableIdx ∧ (b.solve o).x = b.x := by
  unfold Builder.solve
  split <;> simp_all

theorem remove_fields (et : EnumType) (b : Builder K) (σ : Var → K) :
    (b.removeSolution et σ).backend = b.backend ∧ (b.removeSolution et σ).coefs = b.coefs ∧
    (b.removeSolution et σ).aset = b.aset ∧
    (b.removeSolution et σ).varNames = b.varNames ∧ (b.removeSolution et σ).costType = b.costType ∧
    (b.removeSolution et σ).feats = b.feats ∧ (b.removeSolution et σ).intercept = b.intercept ∧
    (b.removeSolution et σ).minItems = b.minItems ∧ (b.removeSolution et σ).maxItems = b.maxItems ∧
    (b.removeSolution et σ).actionableIdx = b.actionableIdx ∧ (b.removeSolution et σ).x = b.x := by
  cases et <;> simp [Builder.removeSolution]

/-- The attributes that solver calls leave alone. -/
structure SameFixed (b b' : Builder K) : Prop where
  backend : b'.backend = b.backend
  coefs : b'.coefs = b.coefs
  aset : b'.aset = b.aset
  varNames : b'.varNames = b.varNames
  costType : b'.costType = b.costType
  feats : b'.feats = b.feats
  intercept : b'.intercept = b.intercept
  minItems : b'.minItems = b.minItems
  maxItems : b'.maxItems = b.maxItems
  actionableIdx : b'.actionableIdx = b.actionableIdx
  x : b'.x = b.x

theorem SameFixed.refl (b : Builder K) : SameFixed b b := ⟨rfl, rfl, rfl, rfl, rfl, rfl, rfl, rfl, rfl, rfl, rfl⟩

theorem SameFixed.trans {a b c : Builder K} (h : SameFixed a b) (g : SameFixed b c) : SameFixed a c :=
  ⟨g.1.trans h.1, g.2.trans h.2, g.3.trans h.3, g.4.trans h.4, g.5.trans h.5, g.6.trans h.6,
    g.7.trans h.7, g.8.trans h.8, g.9.trans h.9, g.10.trans h.10, g.11.trans h.11⟩

theorem SameFixed.solve (o : Oracle K) (b : Builder K) : SameFixed b (b.solve o) := by
  obtain ⟨h1, h2, h3, h4, h5, -, h6, h7, h8, h9, h10, h11⟩ := solve_fields o b
  exact ⟨h1, h2, h3, h4, h5, h6, h7, h8, h9, h10, h11⟩

theorem SameFixed.remove (et : EnumType) (b : Builder K) (σ : Var → K) :
    SameFixed b (b.removeSolution et σ) := by
  obtain ⟨h1, h2, h3, h4, h5, h6, h7, h8, h9, h10, h11⟩ := remove_fields et b σ
  exact ⟨h1, h2, h3, h4, h5, h6, h7, h8, h9, h10, h11⟩

theorem fit_ok {o : Oracle K} {b b' : Builder K} {i : Info K} (h : b.fit o = .ok (b', i)) :
    (∃ m, b.mip = some m) ∧ b' = b.solve o ∧ i = (b.solve o).solutionInfo := by
  unfold Builder.fit at h
  cases hm : b.mip with
  | none => rw [hm] at h; cases h
  | some m => rw [hm] at h; cases h; exact ⟨⟨m, rfl⟩, rfl, rfl⟩

theorem SameFixed.popLoop {o : Oracle K} {et : EnumType} {fuel : ℕ} {total : Option ℕ} {b b' : Builder K}
    {acc l : List (Info K)} (h : b.popLoop o et fuel total acc = some (b', l)) : SameFixed b b' := by
  induction fuel generalizing total b acc with
  | zero =>
    cases total with
    | none => simp [Builder.popLoop] at h
    | some n => cases n with
      | zero => simp only [Builder.popLoop, Option.some.injEq, Prod.mk.injEq] at h; rw [← h.1]; exact SameFixed.refl b
      | succ n => simp [Builder.popLoop] at h
  | succ fuel ih =>
    have step : ∀ total' : Option ℕ, (match (b.solve o).reported with
        | none => some (b.solve o, acc)
        | some σ => Builder.popLoop o et fuel total' ((b.solve o).removeSolution et σ)
            (acc ++ [(b.solve o).solutionInfo])) = some (b', l) → SameFixed b b' := by
      intro total' h
      cases hr : (b.solve o).reported with
      | none => rw [hr] at h; simp only [Option.some.injEq, Prod.mk.injEq] at h; rw [← h.1]; exact SameFixed.solve o b
      | some σ =>
        rw [hr] at h
        exact ((SameFixed.solve o b).trans (SameFixed.remove et _ σ)).trans (ih h)
    cases total with
    | none => exact step _ h
    | some n => cases n with
      | zero => simp only [Builder.popLoop, Option.some.injEq, Prod.mk.injEq] at h; rw [← h.1]; exact SameFixed.refl b
      | succ n => exact step _ h

theorem populate_ok {o : Oracle K} {et : EnumType} {fuel : ℕ} {total : Option ℕ} {b b' : Builder K}
    {l : List (Info K)} (h : b.populate o et fuel total = .ok (some (b', l))) :
    (∃ m, b.mip = some m) ∧ (∀ n, total = some n → 1 ≤ n) ∧ b.popLoop o et fuel total [] = some (b', l) := by
  unfold Builder.populate at h
  cases hm : b.mip with
  | none => simp [hm] at h
  | some m =>
    simp only [hm, Option.isNone_some, Bool.false_eq_true, if_false, bind_ok_iff, pyAssert_ok_iff] at h
    obtain ⟨_, h1, h2⟩ := h
    refine ⟨⟨m, rfl⟩, ?_, Except.ok.inj h2⟩
    rintro n rfl
    simpa using h1

theorem setX_fields (ext : Ext K) (b : Builder K) (x : List K) :
    (b.setX ext x).1.coefs = b.coefs ∧ (b.setX ext x).1.varNames = b.varNames ∧
    ((b.setX ext x).1.aset = b.aset ∨ (b.setX ext x).1.aset = b.aset.touch ext true ∨
      (b.setX ext x).1.aset = b.aset.visit ext (b.aset.visitOrder ext)) := by
  unfold Builder.setX
  split_ifs with h
  · simp
  · dsimp only
    split
    · simp
    · split
      · simp
      · simp

theorem touch_names (ext : Ext K) (A : ActionSet K) (rc : Bool) : (A.touch ext rc).names = A.names := rfl

/-- Visiting features leads from a reachable set to a reachable set with the same names. -/
theorem ActionSet.Reachable.visit {ext : Ext K} (js : List ℕ) {A : ActionSet K} (h : A.Reachable ext) :
    (A.visit ext js).Reachable ext ∧ (A.visit ext js).names = A.names := by
  induction js generalizing A with
  | nil => exact ⟨h, rfl⟩
  | cons j js ih =>
    unfold ActionSet.visit
    cases he : A.elems[j]? with
    | none => exact ⟨h, rfl⟩
    | some e =>
      dsimp only
      split_ifs with hc
      · exact ih (.percentile h he)
      · exact ⟨h, rfl⟩

/-- Setting item limits leaves everything but the limits and the program alone. -/
theorem setItemLimits_fields (b : Builder K) (lo hi : Option Int) :
    (b.setItemLimits lo hi).1.aset = b.aset ∧ (b.setItemLimits lo hi).1.varNames = b.varNames ∧
        (b.setItemLimits lo hi).1.coefs = b.coefs := by
  unfold Builder.setItemLimits
  cases lo with
  | none => simp
  | some lo =>
    cases hi with
    | none => simp
    | some hi =>
      dsimp only
      by_cases h1 : hi < lo
      · simp [h1]
      · rw [if_neg h1]
        by_cases h2 : lo ≠ (b.minItems : Int)
        · rw [if_pos h2]
          cases b.mip with
          | none => simp
          | some m =>
            dsimp only
            by_cases h0 : lo < 0
            · rw [if_pos h0]; simp
            rw [if_neg h0]
            by_cases h3 : hi ≠ (b.maxItems : Int)
            · rw [if_pos h3]; simp
            · rw [if_neg h3]; simp
        · rw [if_neg h2]
          by_cases h3 : hi ≠ (b.maxItems : Int)
          · rw [if_pos h3]; simp
          · rw [if_neg h3]; simp

theorem setMinItems_eq (b : Builder K) (k : Option Int) :
    ∃ n, (b.setMinItems k).1 = { b with minItems := n } := by
  unfold Builder.setMinItems
  cases k with
  | none => exact ⟨0, rfl⟩
  | some k =>
    dsimp only
    by_cases h : k < 0
    · rw [if_pos h]; exact ⟨b.minItems, rfl⟩
    · rw [if_neg h]; exact ⟨_, rfl⟩

theorem setMaxItems_eq (b : Builder K) (k : Option Int) :
    ∃ n, (b.setMaxItems k).1 = { b with maxItems := n } := by
  unfold Builder.setMaxItems
  cases k with
  | none => exact ⟨b.nActionable, rfl⟩
  | some k =>
    dsimp only
    by_cases h : k < 0
    · rw [if_pos h]; exact ⟨b.maxItems, rfl⟩
    · rw [if_neg h]; exact ⟨_, rfl⟩

/-- Every reachable builder is well formed. -/
theorem Builder.Reachable.ok {ext : Ext K} {b : Builder K} (h : b.Reachable ext) : BuilderOK ext b := by
  induction h with
  | @mk be ct A w t b hA h =>
    unfold mkBuilder at h
    simp only [bind_ok_iff, pyAssert_ok_iff, decide_eq_true_eq] at h
    obtain ⟨_, hlen, h⟩ := h
    by_cases hk : A.alignmentKnown = true
    · rw [if_pos hk] at h
      cases h
      refine ⟨hA, hA.wf.names, hlen.symm⟩
    · rw [if_neg hk] at h
      obtain ⟨A', hA', h⟩ := bind_ok_iff.mp h
      have hr := ActionSet.Reachable.align hA hA'
      have hn : A'.names = A.names := by
        obtain ⟨-, rfl⟩ := setAlignment_ok hA'
        rfl
      cases h
      exact ⟨hr, hr.wf.names, by simp [hn, hlen]⟩
  | @setX b x hr ih =>
    obtain ⟨h1, h2, h3⟩ := setX_fields ext b x
    rcases h3 with h3 | h3 | h3
    · exact ⟨h3 ▸ ih.1, by rw [h2, h3]; exact ih.2, by rw [h1, h3]; exact ih.3⟩
    · exact ⟨h3 ▸ ih.1.touch true, by rw [h2, h3, touch_names]; exact ih.2,
        by rw [h1, h3, touch_names]; exact ih.3⟩
    · have hv := ih.1.visit (b.aset.visitOrder ext)
      exact ⟨h3 ▸ hv.1, by rw [h2, h3, hv.2]; exact ih.2, by rw [h1, h3, hv.2]; exact ih.3⟩
  | @fit b b' o i hr h ih =>
    obtain ⟨-, rfl, -⟩ := fit_ok h
    have hs := SameFixed.solve o b
    exact ⟨hs.aset ▸ ih.1, by rw [hs.varNames, hs.aset]; exact ih.2, by rw [hs.coefs, hs.aset]; exact ih.3⟩
  | @populate b b' o et fuel total l hr h ih =>
    have hs := SameFixed.popLoop (populate_ok h).2.2
    exact ⟨hs.aset ▸ ih.1, by rw [hs.varNames, hs.aset]; exact ih.2, by rw [hs.coefs, hs.aset]; exact ih.3⟩
  | @limits b lo hi hr ih =>
    have := setItemLimits_fields b lo hi
    exact ⟨this.1 ▸ ih.1, by rw [this.2.1, this.1]; exact ih.2, by rw [this.2.2, this.1]; exact ih.3⟩
  | @minItems b k hr ih =>
    obtain ⟨n, h⟩ := setMinItems_eq b k
    rw [h]; exact ⟨ih.1, ih.2, ih.3⟩
  | @maxItems b k hr ih =>
    obtain ⟨n, h⟩ := setMaxItems_eq b k
    rw [h]; exact ⟨ih.1, ih.2, ih.3⟩
  | user hr hA hn ih => exact ⟨hA, ih.2.trans hn.symm, ih.3.trans (by rw [hn])⟩

/-- A successful assignment of `x`. -/
theorem setX_ok {ext : Ext K} {b b1 : Builder K} {x : List K} (h : b.setX ext x = (b1, .ok ())) :
    ∃ feats m, x.length = b.coefs.length ∧ b.buildInfo ext x = .ok feats ∧
      buildMip b.backend (b.buildArgs x feats) = .ok m ∧
      b1 = { b with x := some x, aset := b.aset.touch ext true, mip := some m, feats := feats, sol := .unknown } := by
  unfold Builder.setX at h
  split_ifs at h with hl
  · simp at h
  · dsimp only at h
    have hbi : ({ b with x := some x } : Builder K).buildInfo ext x = b.buildInfo ext x := rfl
    rw [hbi] at h
    cases hb : b.buildInfo ext x with
    | error e => rw [hb] at h; simp at h
    | ok feats =>
      rw [hb] at h
      dsimp only at h
      have hba : ({ b with x := some x, aset := b.aset.touch ext true } : Builder K).buildArgs x feats
          = b.buildArgs x feats := rfl
      rw [hba] at h
      cases hm : buildMip b.backend (b.buildArgs x feats) with
      | error e => rw [hm] at h; simp at h
      | ok m =>
        rw [hm] at h
        simp only [Prod.mk.injEq, and_true] at h
        exact ⟨feats, m, by push Not at hl; exact hl, rfl, hm, h.symm⟩

/-- The builder currently poses the program of `p`, restricted to choices with `P`. -/
structure Posed (n : ℕ) (be : Backend) (p : BuildArgs K) (P : (ℕ → ℕ) → Prop) (b : Builder K) : Prop where
  mip : ∃ m, b.mip = some m ∧ CutOf p m P ∧ DeclsOK p.feats m
  feats : b.feats = p.feats
  ct : b.costType = p.costType
  len : b.coefs.length = n
  backend : b.backend = be

theorem Posed.congr {n : ℕ} {be : Backend} {p : BuildArgs K} {P : (ℕ → ℕ) → Prop} {b b' : Builder K}
    (h : Posed n be p P b) (hs : SameFixed b b') (hm : b'.mip = b.mip) : Posed n be p P b' :=
  ⟨hm ▸ h.mip, hs.feats.trans h.feats, hs.costType.trans h.ct, by rw [hs.coefs]; exact h.len,
    hs.backend.trans h.backend⟩

theorem Posed.solve {n : ℕ} {be : Backend} {p : BuildArgs K} {P : (ℕ → ℕ) → Prop} {b : Builder K}
    (h : Posed n be p P b) (o : Oracle K) : Posed n be p P (b.solve o) :=
  h.congr (SameFixed.solve o b) (solve_fields o b).2.2.2.2.2.1

/-- After a successful assignment of `x`. -/
theorem Posed.setX {ext : Ext K} (hso : SetOrderOk ext) {b b1 : Builder K} (hb : BuilderOK ext b) {x : List K}
    (h : b.setX ext x = (b1, .ok ())) : ∃ feats, b.buildInfo ext x = .ok feats ∧
      FeatsOK b.coefs.length feats ∧
      Posed b.coefs.length b.backend (b.buildArgs x feats) (fun _ => True) b1 := by
  obtain ⟨feats, m, -, hbi, hm, rfl⟩ := setX_ok h
  have hok := buildInfo_ok hso hb hbi
  refine ⟨feats, hbi, hok, ⟨m, rfl, CutOf.base hm hok, DeclsOK.base hm hok⟩, rfl, rfl, rfl, rfl⟩

/-- The effect of removing an item, as a condition on later choices. -/
def CutBy (et : EnumType) (be : Backend) (feats : List (Feat K)) (κ0 κ : ℕ → ℕ) : Prop :=
  match et with
  | .distinctSubsets => ∃ f ∈ feats, ¬ (κ f.idx = cutPos be f ↔ κ0 f.idx = cutPos be f)
  | .mutuallyExclusive => ∀ f ∈ feats, κ0 f.idx ≠ 0 → κ f.idx = 0

theorem Posed.remove {n : ℕ} {be : Backend} {p : BuildArgs K} {P : (ℕ → ℕ) → Prop} {b : Builder K}
    (hok : FeatsOK n p.feats) (h : Posed n be p P b) {κ0 : ℕ → ℕ} {σ : Var → K} (he : Encodes p.feats κ0 σ)
    (et : EnumType) :
    Posed n be p (fun κ => P κ ∧ CutBy et be p.feats κ0 κ) (b.removeSolution et σ) := by
  obtain ⟨m, hm, hc, hd⟩ := h.mip
  obtain ⟨h1, h2, -, -, h5, h6, -⟩ := remove_fields et b σ
  refine ⟨?_, h6.trans h.feats, h5.trans h.ct, by rw [h2]; exact h.len, h1.trans h.backend⟩
  cases et with
  | mutuallyExclusive =>
    refine ⟨cutAll p.feats σ m, ?_, hc.all hd he, hd.all σ⟩
    simp [Builder.removeSolution, hm, h.feats]
  | distinctSubsets =>
    refine ⟨cutCombo be p.feats σ m, ?_, hc.combo be hok he, hd.combo be σ⟩
    simp [Builder.removeSolution, hm, h.feats, h.backend]

/-- What a result says about the choice it was read from. -/
structure Reports (n : ℕ) (p : BuildArgs K) (κ : ℕ → ℕ) (i : Info K) : Prop where
  feasible : i.feasible = true
  actions : i.actions = some (actVec n p.feats κ)
  costs : i.costs = some (cstVec n p.feats κ)
  sum : p.costType ≠ .max → i.cost = .fin (choiceSum p.feats κ) ∧ i.upperbound = .fin (choiceSum p.feats κ)
  max : p.costType = .max → ∃ c, choiceMax p.feats κ ≤ c ∧ i.cost = .fin c ∧
    i.upperbound = .fin (c + epsilon p.feats * choiceSum p.feats κ)

/-- The result of a proven optimum. -/
structure Best (p : BuildArgs K) (P : (ℕ → ℕ) → Prop) (κ : ℕ → ℕ) (i : Info K) : Prop where
  least : ∀ κ', ChoiceOK p κ' → P κ' → choiceObj p.costType p.feats κ ≤ choiceObj p.costType p.feats κ'
  bound : i.upperbound = .fin (choiceObj p.costType p.feats κ)
  cost : i.cost = .fin (if p.costType = .max then choiceMax p.feats κ else choiceSum p.feats κ)

/-- What a solve of the posed program yields, for a sound solver. -/
theorem Posed.solved {n : ℕ} {be : Backend} {p : BuildArgs K} {P : (ℕ → ℕ) → Prop} {b : Builder K}
    (hok : FeatsOK n p.feats) (h : Posed n be p P b) {o : Oracle K} (ho : o.Sound) :
    ((b.solve o).reported = none ∧ (b.solve o).solutionInfo = emptyInfo ∧
      (o.Complete → ¬ ∃ κ, ChoiceOK p κ ∧ P κ)) ∨
    ∃ σ κ, (b.solve o).reported = some σ ∧ Encodes p.feats κ σ ∧ ChoiceOK p κ ∧ P κ ∧
      Reports n p κ (b.solve o).solutionInfo ∧
      (o.Complete → Best p P κ (b.solve o).solutionInfo) := by
  have hp := h.solve o
  obtain ⟨m, hm, hc, hd⟩ := hp.mip
  have hm0 : b.mip = some m := by rw [← hm]; exact (solve_fields o b).2.2.2.2.2.1.symm
  have hsol : (b.solve o).sol = o b.clock m := by unfold Builder.solve; rw [hm0]
  have hs := ho b.clock m
  have hnone : (b.solve o).reported = none → (b.solve o).solutionInfo = emptyInfo := by
    intro hr; unfold Builder.solutionInfo; rw [hr]
  -- feasible points
  have good : ∀ σ, (b.solve o).reported = some σ → m.Feasible σ →
      ∃ κ, Encodes p.feats κ σ ∧ ChoiceOK p κ ∧ P κ ∧ Reports n p κ (b.solve o).solutionInfo ∧
        (m.Optimal σ → Best p P κ (b.solve o).solutionInfo) := by
    intro σ hr hf
    obtain ⟨κ, he, hk, hP, hcv⟩ := (hc.feas σ).mp hf
    have hi := solutionInfo_spec hm hc hok hp.feats hp.ct hp.len hr he hcv
    have hob : m.objVal σ = (if p.costType = .max then σ .maxCost - choiceMax p.feats κ else 0)
        + choiceObj p.costType p.feats κ := by
      unfold Mip.objVal; rw [hc.obj]; exact objective_eq hok he hcv
    refine ⟨κ, he, hk, hP, ?_, ?_⟩
    · refine ⟨by rw [hi], by rw [hi], by rw [hi], ?_, ?_⟩
      · intro hct
        rw [hi, hob]
        simp only [if_neg hct, zero_add, true_and]
        unfold choiceObj
        cases hh : p.costType with
        | max => exact absurd hh hct
        | _ => rfl
      · intro hct
        refine ⟨σ .maxCost, ?_, by rw [hi]; simp [hct], ?_⟩
        · exact choiceMax_le (hcv hct).pos (hcv hct).max
        · rw [hi, hob]
          simp only [hct, if_true, choiceObj]
          congr 1; ring
    · intro hopt
      obtain ⟨κ', he', hk', hP', hc', ho', hl'⟩ := hc.optimal_spec hok hopt
      have hag := he'.agree he
      have hobj := hag.obj p.costType
      rw [hobj] at ho' hl'
      refine ⟨hl', by rw [hi, ho'], ?_⟩
      rw [hi]
      by_cases hct : p.costType = .max
      · simp only [hct, if_true]
        rw [hct] at hob
        rw [hct] at ho'
        simp only [if_true] at hob
        congr 1; linarith
      · simp [hct]
  cases hr : o b.clock m with
  | optimal σ =>
    rw [hr] at hs hsol
    right
    have hrep : (b.solve o).reported = some σ := by unfold Builder.reported; rw [hsol]
    obtain ⟨κ, h1, h2, h3, h4, h5⟩ := good σ hrep hs.1
    exact ⟨σ, κ, hrep, h1, h2, h3, h4, fun _ => h5 hs⟩
  | feasible σ =>
    rw [hr] at hs hsol
    have hnc : ¬ o.Complete := by
      intro hcomp
      obtain ⟨κ, he, hk, hP, -⟩ := (hc.feas σ).mp hs
      obtain ⟨τ, hτ⟩ := hc.optimal_exists hok ⟨κ, hk, hP⟩
      obtain ⟨τ', hτ'⟩ := (hcomp b.clock m).1 ⟨τ, hτ⟩
      rw [hr] at hτ'; cases hτ'
    cases hbe : (b.solve o).backend with
    | cpx =>
      right
      have hrep : (b.solve o).reported = some σ := by unfold Builder.reported; rw [hsol, hbe]
      obtain ⟨κ, h1, h2, h3, h4, h5⟩ := good σ hrep hs
      exact ⟨σ, κ, hrep, h1, h2, h3, h4, fun hcomp => absurd hcomp hnc⟩
    | pymip =>
      left
      have hrep : (b.solve o).reported = none := by unfold Builder.reported; rw [hsol, hbe]
      exact ⟨hrep, hnone hrep, fun hcomp => absurd hcomp hnc⟩
  | infeasible =>
    rw [hr] at hs hsol
    left
    have hrep : (b.solve o).reported = none := by
      unfold Builder.reported; rw [hsol]
    exact ⟨hrep, hnone hrep, fun _ => (hc.infeasible_iff hok).mp hs⟩
  | unknown =>
    rw [hr] at hsol
    left
    have hrep : (b.solve o).reported = none := by
      unfold Builder.reported; rw [hsol]
    refine ⟨hrep, hnone hrep, fun hcomp => ?_⟩
    rintro ⟨κ, hk⟩
    obtain ⟨τ, hτ⟩ := hc.optimal_exists hok ⟨κ, hk⟩
    obtain ⟨τ', hτ'⟩ := (hcomp b.clock m).1 ⟨τ, hτ⟩
    rw [hr] at hτ'; cases hτ'

/-- The items of an enumeration and the choices they were read from: each satisfies what was left by
the previous ones. -/
def Trace (n : ℕ) (be : Backend) (et : EnumType) (p : BuildArgs K) (exact : Prop) :
    ((ℕ → ℕ) → Prop) → List ((ℕ → ℕ) × Info K) → Prop
  | _, [] => True
  | P, (κ, i) :: t => ChoiceOK p κ ∧ P κ ∧ Reports n p κ i ∧ (exact → Best p P κ i) ∧
      Trace n be et p exact (fun κ' => P κ' ∧ CutBy et be p.feats κ κ') t

/-- What is left after an enumeration. -/
def Left (et : EnumType) (be : Backend) (p : BuildArgs K) (P : (ℕ → ℕ) → Prop)
    (t : List ((ℕ → ℕ) × Info K)) (κ : ℕ → ℕ) : Prop :=
  P κ ∧ ∀ q ∈ t, CutBy et be p.feats q.1 κ

theorem Posed.popLoop {n : ℕ} {be : Backend} {p : BuildArgs K} (hok : FeatsOK n p.feats) {o : Oracle K}
    (ho : o.Sound) {et : EnumType} {fuel : ℕ} {total : Option ℕ} {b b' : Builder K} {P : (ℕ → ℕ) → Prop}
    (h : Posed n be p P b) {acc l : List (Info K)} (hl : b.popLoop o et fuel total acc = some (b', l)) :
    ∃ t : List ((ℕ → ℕ) × Info K), l = acc ++ t.map (·.2) ∧ Trace n be et p o.Complete P t ∧
      Posed n be p (Left et be p P t) b' ∧ (∀ k, total = some k → t.length ≤ k) ∧
      ((∃ k, total = some k ∧ t.length = k) ∨
        (o.Complete → ¬ ∃ κ, ChoiceOK p κ ∧ Left et be p P t κ)) := by
  induction fuel generalizing total b acc P with
  | zero =>
    cases total with
    | none => simp [Builder.popLoop] at hl
    | some k => cases k with
      | zero =>
        simp only [Builder.popLoop, Option.some.injEq, Prod.mk.injEq] at hl
        obtain ⟨rfl, rfl⟩ := hl
        refine ⟨[], by simp, trivial, ?_, by simp, Or.inl ⟨0, rfl, rfl⟩⟩
        have : Left et be p P ([] : List ((ℕ → ℕ) × Info K)) = P := by funext κ; simp [Left]
        rw [this]; exact h
      | succ k => simp [Builder.popLoop] at hl
  | succ fuel ih =>
    have step : ∀ total' : Option ℕ, total ≠ some 0 → total' = total.map (· - 1) →
        (match (b.solve o).reported with
        | none => some (b.solve o, acc)
        | some σ => Builder.popLoop o et fuel total' ((b.solve o).removeSolution et σ)
            (acc ++ [(b.solve o).solutionInfo])) = some (b', l) →
        ∃ t : List ((ℕ → ℕ) × Info K), l = acc ++ t.map (·.2) ∧ Trace n be et p o.Complete P t ∧
          Posed n be p (Left et be p P t) b' ∧ (∀ k, total = some k → t.length ≤ k) ∧
          ((∃ k, total = some k ∧ t.length = k) ∨
            (o.Complete → ¬ ∃ κ, ChoiceOK p κ ∧ Left et be p P t κ)) := by
      intro total' ht0 ht' hl
      rcases h.solved hok ho with ⟨hr, -, hinf⟩ | ⟨σ, κ, hr, he, hk, hP, hrep, hbest⟩
      · rw [hr] at hl
        simp only [Option.some.injEq, Prod.mk.injEq] at hl
        obtain ⟨rfl, rfl⟩ := hl
        have hL : Left et be p P ([] : List ((ℕ → ℕ) × Info K)) = P := by funext κ; simp [Left]
        exact ⟨[], by simp, trivial, by rw [hL]; exact h.solve o, by simp, Or.inr (by rw [hL]; exact hinf)⟩
      · rw [hr] at hl
        obtain ⟨t, h1, h2, h3, h4, h5⟩ := ih ((h.solve o).remove hok he et) hl
        have hL : Left et be p P ((κ, (b.solve o).solutionInfo) :: t)
            = Left et be p (fun κ' => P κ' ∧ CutBy et be p.feats κ κ') t := by
          funext κ'
          simp only [Left, List.mem_cons, forall_eq_or_imp, eq_iff_iff]
          tauto
        refine ⟨(κ, (b.solve o).solutionInfo) :: t, by rw [h1]; simp, ⟨hk, hP, hrep, hbest, h2⟩, ?_, ?_, ?_⟩
        · rw [hL]; exact h3
        · rintro k rfl
          cases k with
          | zero => exact absurd rfl ht0
          | succ k =>
            have := h4 k (by rw [ht']; rfl)
            simpa using this
        · rcases h5 with ⟨k, hk1, hk2⟩ | h5
          · left
            cases total with
            | none => rw [ht'] at hk1; simp at hk1
            | some k' =>
              rw [ht'] at hk1
              simp only [Option.map_some, Option.some.injEq] at hk1
              have : k' ≠ 0 := fun h0 => ht0 (by rw [h0])
              exact ⟨k', rfl, by simp; omega⟩
          · right; rw [hL]; exact h5
    cases total with
    | none => exact step none (by simp) rfl hl
    | some k => cases k with
      | zero =>
        simp only [Builder.popLoop, Option.some.injEq, Prod.mk.injEq] at hl
        obtain ⟨rfl, rfl⟩ := hl
        have hL : Left et be p P ([] : List ((ℕ → ℕ) × Info K)) = P := by funext κ; simp [Left]
        exact ⟨[], by simp, trivial, by rw [hL]; exact h, by simp, Or.inl ⟨0, rfl, rfl⟩⟩
      | succ k => exact step _ (by simp) rfl hl

/-- Whatever happens afterwards, the program stays a restriction of the one posed. -/
theorem Posed.after {n : ℕ} {be : Backend} {p : BuildArgs K} (hok : FeatsOK n p.feats) {o : Oracle K}
    (ho : o.Sound) {b b' : Builder K} {P : (ℕ → ℕ) → Prop} (h : Posed n be p P b) (ha : b.After o b') :
    ∃ Q : (ℕ → ℕ) → Prop, (∀ κ, Q κ → P κ) ∧ Posed n be p Q b' := by
  induction ha with
  | refl => exact ⟨P, fun _ h => h, h⟩
  | fit hr hf ih =>
    obtain ⟨Q, hQ, hq⟩ := ih
    obtain ⟨-, rfl, -⟩ := fit_ok hf
    exact ⟨Q, hQ, hq.solve o⟩
  | populate hr hf ih =>
    obtain ⟨Q, hQ, hq⟩ := ih
    obtain ⟨-, -, hl⟩ := populate_ok hf
    obtain ⟨t, -, -, h3, -⟩ := hq.popLoop hok ho hl
    exact ⟨_, fun κ h => hQ κ h.1, h3⟩
  | user A hr ih =>
    obtain ⟨Q, hQ, hq⟩ := ih
    exact ⟨Q, hQ, ⟨hq.mip, hq.feats, hq.ct, hq.len, hq.backend⟩⟩

end Recourse
