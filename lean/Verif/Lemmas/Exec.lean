import Verif.Lemmas.FeatSpec
import Verif.Examples

/-!
# Evaluating concrete instances

Enumeration of the choices of a concrete program, so that what *every* exact solver answers on it can be
computed.  Only used for examples and refutations.
-/

set_option linter.unusedSectionVars false

namespace Recourse

variable {K : Type} [Field K] [LinearOrder K] [IsStrictOrderedRing K] [FloorRing K]

instance decEqExcept {ε α : Type} [DecidableEq ε] [DecidableEq α] : DecidableEq (Except ε α)
  | .ok a, .ok b => if h : a = b then isTrue (by rw [h]) else isFalse (by intro h'; cases h'; exact h rfl)
  | .error a, .error b =>
      if h : a = b then isTrue (by rw [h]) else isFalse (by intro h'; cases h'; exact h rfl)
  | .ok _, .error _ => isFalse (by intro h; cases h)
  | .error _, .ok _ => isFalse (by intro h; cases h)

/-- All choices over a feature list, up to agreement. -/
def choicesOf : List (Feat K) → List (ℕ → ℕ)
  | [] => [fun _ => 0]
  | f :: t => (choicesOf t).flatMap fun κ =>
      (List.range f.actions.length).map fun k j => if j = f.idx then k else κ j

theorem mem_choicesOf {feats : List (Feat K)} (hn : (feats.map (·.idx)).Nodup) {κ : ℕ → ℕ}
    (hκ : Choice feats κ) : ∃ κ' ∈ choicesOf feats, Agree feats κ κ' := by
  induction feats with
  | nil => exact ⟨fun _ => 0, by simp [choicesOf], fun f hf => by simp at hf⟩
  | cons f t ih =>
    simp only [List.map_cons, List.nodup_cons, List.mem_map, not_exists, not_and] at hn
    obtain ⟨κ', h1, h2⟩ := ih hn.2 fun g hg => hκ g (List.mem_cons_of_mem _ hg)
    refine ⟨fun j => if j = f.idx then κ f.idx else κ' j, ?_, ?_⟩
    · simp only [choicesOf, List.mem_flatMap, List.mem_map, List.mem_range]
      exact ⟨κ', h1, κ f.idx, hκ f (List.mem_cons_self ..), rfl⟩
    · intro g hg
      rcases List.mem_cons.mp hg with rfl | hg
      · simp
      · dsimp only; rw [if_neg (hn.1 g hg)]; exact h2 g hg

/-- Evaluation of `LimitOK`. -/
def limitOKb (feats : List (Feat K)) (κ : ℕ → ℕ) (c : SubsetLimit) : Bool :=
  let fs := c.indices.filterMap (feats[·]?)
  decide (fs.length = c.indices.length) &&
    decide (c.lb ≤ (fs.countP fun f => decide (κ f.idx ≠ f.kNull) : ℕ)) &&
    decide (((fs.countP fun f => decide (κ f.idx ≠ f.kNull) : ℕ) : Int) ≤ c.ub)

theorem filterMap_map_some {α β : Type} (g : α → Option β) (l : List α) :
    (l.filterMap g).length = l.length ↔ l.map g = (l.filterMap g).map some := by
  induction l with
  | nil => simp
  | cons a t ih =>
    cases h : g a with
    | none =>
      simp only [List.filterMap_cons, h, List.length_cons, List.map_cons]
      constructor
      · intro h'
        have := List.length_filterMap_le g t
        omega
      · intro h'
        exfalso
        have h0 : (none : Option β) ∈ (t.filterMap g).map some := by rw [← h']; exact List.mem_cons_self ..
        simp at h0
    | some b =>
      simp only [List.filterMap_cons, h, List.length_cons, List.map_cons, List.cons.injEq, true_and,
        Nat.add_right_cancel_iff]
      exact ih

theorem limitOKb_iff (feats : List (Feat K)) (κ : ℕ → ℕ) (c : SubsetLimit) :
    limitOKb feats κ c = true ↔ LimitOK feats κ c := by
  unfold limitOKb LimitOK
  simp only [Bool.and_eq_true, decide_eq_true_eq, and_assoc]
  constructor
  · rintro ⟨h1, h2, h3⟩
    exact ⟨_, (filterMap_map_some _ _).mp h1, h2, h3⟩
  · rintro ⟨fs, h1, h2, h3⟩
    have hfs : c.indices.filterMap (feats[·]?) = fs := by
      have hh : ∀ (l : List ℕ) (fs : List (Feat K)), l.map (feats[·]?) = fs.map some →
          l.filterMap (feats[·]?) = fs := by
        intro l
        induction l with
        | nil => intro fs h; cases fs with
          | nil => rfl
          | cons => simp at h
        | cons a t ih => intro fs h; cases fs with
          | nil => simp at h
          | cons b fs =>
            simp only [List.map_cons, List.cons.injEq] at h
            rw [List.filterMap_cons, h.1]
            simp only [List.cons.injEq, true_and]
            exact ih fs h.2
      exact hh _ _ h1
    rw [hfs]
    refine ⟨?_, h2, h3⟩
    have := congrArg List.length h1
    simpa using this.symm

/-- Evaluation of `ChoiceOK`. -/
def choiceOKb (p : BuildArgs K) (κ : ℕ → ℕ) : Bool :=
  p.feats.all (fun f => decide (κ f.idx < f.actions.length)) &&
  (if 0 < p.yDesired then decide (0 ≤ p.score + choiceGain p.feats κ)
    else decide (p.score + choiceGain p.feats κ ≤ 0)) &&
  decide (max p.minItems 1 ≤ choiceSize p.feats κ) && decide (choiceSize p.feats κ ≤ p.maxItems) &&
  p.limits.all (limitOKb p.feats κ)

theorem choiceOKb_iff (p : BuildArgs K) (κ : ℕ → ℕ) : choiceOKb p κ = true ↔ ChoiceOK p κ := by
  unfold choiceOKb
  simp only [Bool.and_eq_true, decide_eq_true_eq, List.all_eq_true, limitOKb_iff]
  constructor
  · rintro ⟨⟨⟨⟨h1, h2⟩, h3⟩, h4⟩, h5⟩
    refine ⟨h1, ?_, h3, h4, h5⟩
    split_ifs at h2 ⊢ with hy <;> simpa using h2
  · intro h
    refine ⟨⟨⟨⟨h.lt, ?_⟩, h.lo⟩, h.hi⟩, h.limits⟩
    have := h.score
    split_ifs at this ⊢ with hy <;> simpa using this

/-- The admitted choices with `P`. -/
def admitted (p : BuildArgs K) (P : (ℕ → ℕ) → Bool) : List (ℕ → ℕ) :=
  (choicesOf p.feats).filter fun κ => choiceOKb p κ && P κ

/-- The cheapest admitted choices with `P`. -/
def optChoices (p : BuildArgs K) (P : (ℕ → ℕ) → Bool) : List (ℕ → ℕ) :=
  (admitted p P).filter fun κ =>
    (admitted p P).all fun κ' => decide (choiceObj p.costType p.feats κ ≤ choiceObj p.costType p.feats κ')

/-- What every exact solver answers. -/
theorem Posed.exec {n : ℕ} {be : Backend} {p : BuildArgs K} {P : (ℕ → ℕ) → Bool} {b : Builder K}
    (hok : FeatsOK n p.feats) (h : Posed n be p (fun κ => P κ = true) b)
    {o : Oracle K} (ho : o.Exact) :
    (admitted p P = [] ∧ (b.solve o).reported = none ∧ (b.solve o).solutionInfo = emptyInfo) ∨
    ∃ κ ∈ optChoices p P, ∃ σ, (b.solve o).reported = some σ ∧ Encodes p.feats κ σ ∧
      Reports n p κ (b.solve o).solutionInfo ∧ Best p (fun κ => P κ = true) κ (b.solve o).solutionInfo := by
  have hP : ∀ κ κ', Agree p.feats κ κ' → P κ = true → P κ' = true := by
    obtain ⟨m, -, hc, -⟩ := h.mip
    exact hc.congr
  have hmem : ∀ κ, κ ∈ admitted p P → ChoiceOK p κ ∧ P κ = true := by
    intro κ hκ
    unfold admitted at hκ
    simp only [List.mem_filter, Bool.and_eq_true, choiceOKb_iff] at hκ
    exact hκ.2
  have hall : ∀ κ, ChoiceOK p κ → P κ = true → ∃ κ' ∈ admitted p P, Agree p.feats κ κ' := by
    intro κ hκ hp
    obtain ⟨κ', h1, h2⟩ := mem_choicesOf hok.nodup hκ.lt
    refine ⟨κ', ?_, h2⟩
    unfold admitted
    simp only [List.mem_filter, Bool.and_eq_true, choiceOKb_iff]
    exact ⟨h1, h2.ok hκ, hP κ κ' h2 hp⟩
  rcases h.solved hok ho.1 with ⟨h1, h2, h3⟩ | ⟨σ, κ, h1, h2, h3, h4, h5, h6⟩
  · left
    refine ⟨?_, h1, h2⟩
    rw [List.eq_nil_iff_forall_not_mem]
    intro κ hκ
    exact h3 ho.2 ⟨κ, hmem κ hκ⟩
  · right
    obtain ⟨κ', h7, h8⟩ := hall κ h3 h4
    have h6 := h6 ho.2
    have hact : ∀ f ∈ p.feats, f.act κ = f.act κ' := fun f hf => h8.act hf
    have hcst : ∀ f ∈ p.feats, f.cst κ = f.cst κ' := fun f hf => h8.cst hf
    have hmap : (p.feats.map fun f => f.cst κ) = p.feats.map fun f => f.cst κ' :=
      List.map_congr_left hcst
    have hsum : choiceSum p.feats κ = choiceSum p.feats κ' := by unfold choiceSum; rw [hmap]
    have hmax : choiceMax p.feats κ = choiceMax p.feats κ' := by unfold choiceMax; rw [hmap]
    refine ⟨κ', ?_, σ, h1, ?_, ?_, ?_⟩
    · unfold optChoices
      rw [List.mem_filter]
      refine ⟨h7, ?_⟩
      rw [List.all_eq_true]
      intro κ'' hκ''
      rw [decide_eq_true_eq, ← h8.obj]
      exact h6.least κ'' (hmem _ hκ'').1 (hmem _ hκ'').2
    · refine ⟨(h8.ok h3).lt, ?_, ?_⟩
      · intro f hf k hk; rw [h2.u f hf k hk, h8 f hf]
      · intro f hf; rw [h2.a f hf, hact f hf]
    · refine ⟨h5.feasible, ?_, ?_, ?_, ?_⟩
      · rw [h5.actions]; unfold actVec
        rw [List.map_congr_left fun f hf => by rw [hact f hf]]
      · rw [h5.costs]; unfold cstVec
        rw [List.map_congr_left fun f hf => by rw [hcst f hf]]
      · intro h; rw [← hsum]; exact h5.sum h
      · intro h; rw [← hsum, ← hmax]; exact h5.max h
    · refine ⟨?_, ?_, ?_⟩
      · intro κ'' a b; rw [← h8.obj]; exact h6.least κ'' a b
      · rw [← h8.obj]; exact h6.bound
      · rw [← hsum, ← hmax]; exact h6.cost

/-! ## Concrete builders -/

/-- A binary or ternary test table, action set, builder and point in one go: the calls
`A = ActionSet(X, names)`, `prep A`, `b = RecourseBuilder(A, w, t)`, `b.x = x`. -/
def exBuildE (ext : Ext ℚ) (be : Backend) (ct : CostType) (X : List (List ℚ)) (names : List String)
    (prep : ActionSet ℚ → Except Err (ActionSet ℚ)) (w : List ℚ) (t : ℚ) (x : List ℚ) :
    Except Err (Builder ℚ) := do
  let A ← mkActionSet X names 1 [] defaultBounds (.str "relative")
  let A ← prep A
  let b ← mkBuilder be ct A w t
  match b.setX ext x with
  | (b, .ok ()) => .ok b
  | (_, .error er) => .error er

/-- The same with the external functions of `Examples.lean`. -/
abbrev exBuild := exBuildE exExt

theorem exExt_order : SetOrderOk exExt := by intro l n; simp [exExt]

theorem exBuildE_ok {ext : Ext ℚ} (hso : SetOrderOk ext) {be : Backend} {ct : CostType} {X : List (List ℚ)} {names : List String}
    {prep : ActionSet ℚ → Except Err (ActionSet ℚ)} {w : List ℚ} {t : ℚ} {x : List ℚ} {b1 : Builder ℚ}
    (h : exBuildE ext be ct X names prep w t x = .ok b1)
    (hprep : ∀ A A', A.Reachable ext → prep A = .ok A' → A'.Reachable ext) :
    ∃ b0 : Builder ℚ, b0.Reachable ext ∧ b0.setX ext x = (b1, .ok ()) ∧
      FeatsOK b1.coefs.length b1.feats ∧
      Posed b1.coefs.length b1.backend (b1.buildArgs x b1.feats) (fun _ => True) b1 := by
  unfold exBuildE at h
  simp only [bind_ok_iff] at h
  obtain ⟨A, hA, A', hA', b0, hb0, h⟩ := h
  have hr0 : b0.Reachable ext := .mk (hprep _ _ (.mk hA) hA') hb0
  have hs : b0.setX ext x = (b1, .ok ()) := by
    rcases hsx : b0.setX ext x with ⟨b2, r⟩
    rw [hsx] at h
    cases r with
    | error e => cases h
    | ok u => cases h; rfl
  refine ⟨b0, hr0, hs, ?_⟩
  obtain ⟨feats, h1, h2, h3⟩ := Posed.setX hso hr0.ok hs
  obtain ⟨feats', m, -, h4, h5, rfl⟩ := setX_ok hs
  rw [h1] at h4; cases h4
  exact ⟨h2, h3⟩

theorem exBuild_ok {be : Backend} {ct : CostType} {X : List (List ℚ)} {names : List String}
    {prep : ActionSet ℚ → Except Err (ActionSet ℚ)} {w : List ℚ} {t : ℚ} {x : List ℚ} {b1 : Builder ℚ}
    (h : exBuild be ct X names prep w t x = .ok b1)
    (hprep : ∀ A A', A.Reachable exExt → prep A = .ok A' → A'.Reachable exExt) :
    ∃ b0 : Builder ℚ, b0.Reachable exExt ∧ b0.setX exExt x = (b1, .ok ()) ∧
      FeatsOK b1.coefs.length b1.feats ∧
      Posed b1.coefs.length b1.backend (b1.buildArgs x b1.feats) (fun _ => True) b1 :=
  exBuildE_ok exExt_order h hprep

/-- The answer of every exact solver on a concrete builder, in computable terms. -/
theorem exFitE {ext : Ext ℚ} (hso : SetOrderOk ext) {be : Backend} {ct : CostType} {X : List (List ℚ)} {names : List String}
    {prep : ActionSet ℚ → Except Err (ActionSet ℚ)} {w : List ℚ} {t : ℚ} {x : List ℚ} {b1 : Builder ℚ}
    (h : exBuildE ext be ct X names prep w t x = .ok b1)
    (hprep : ∀ A A', A.Reachable ext → prep A = .ok A' → A'.Reachable ext) {o : Oracle ℚ} (ho : o.Exact) :
    ∃ b' i, b1.fit o = .ok (b', i) ∧
      ((admitted (b1.buildArgs x b1.feats) (fun _ => true) = [] ∧ i = emptyInfo) ∨
       ∃ κ ∈ optChoices (b1.buildArgs x b1.feats) (fun _ => true), i.feasible = true ∧
        i.actions = some (actVec b1.coefs.length b1.feats κ) ∧
        i.costs = some (cstVec b1.coefs.length b1.feats κ) ∧
        i.cost = .fin (if b1.costType = .max then choiceMax b1.feats κ else choiceSum b1.feats κ) ∧
        i.upperbound = .fin (choiceObj b1.costType b1.feats κ)) := by
  obtain ⟨b0, -, -, h6, h7⟩ := exBuildE_ok hso h hprep
  obtain ⟨m, hm, -⟩ := h7.mip
  have h7' : Posed b1.coefs.length b1.backend (b1.buildArgs x b1.feats)
      (fun κ => (fun _ => true : (ℕ → ℕ) → Bool) κ = true) b1 := by simpa using h7
  refine ⟨b1.solve o, (b1.solve o).solutionInfo, by unfold Builder.fit; rw [hm], ?_⟩
  rcases h7'.exec h6 ho with ⟨h, -, h'⟩ | ⟨κ, hκ, σ, -, -, hrep, hbest⟩
  · exact Or.inl ⟨h, h'⟩
  · exact Or.inr ⟨κ, hκ, hrep.feasible, hrep.actions, hrep.costs, hbest.cost, hbest.bound⟩

theorem exFit {be : Backend} {ct : CostType} {X : List (List ℚ)} {names : List String}
    {prep : ActionSet ℚ → Except Err (ActionSet ℚ)} {w : List ℚ} {t : ℚ} {x : List ℚ} {b1 : Builder ℚ}
    (h : exBuild be ct X names prep w t x = .ok b1)
    (hprep : ∀ A A', A.Reachable exExt → prep A = .ok A' → A'.Reachable exExt) {o : Oracle ℚ} (ho : o.Exact) :
    ∃ b' i, b1.fit o = .ok (b', i) ∧
      ((admitted (b1.buildArgs x b1.feats) (fun _ => true) = [] ∧ i = emptyInfo) ∨
       ∃ κ ∈ optChoices (b1.buildArgs x b1.feats) (fun _ => true), i.feasible = true ∧
        i.actions = some (actVec b1.coefs.length b1.feats κ) ∧
        i.costs = some (cstVec b1.coefs.length b1.feats κ) ∧
        i.cost = .fin (if b1.costType = .max then choiceMax b1.feats κ else choiceSum b1.feats κ) ∧
        i.upperbound = .fin (choiceObj b1.costType b1.feats κ)) :=
  exFitE exExt_order h hprep ho

/-- No preparation of the action set. -/
theorem prep_ok {A A' : ActionSet ℚ} (hA : A.Reachable exExt) (h : (Except.ok A : Except Err _) = .ok A') :
    A'.Reachable exExt := by cases h; exact hA

end Recourse
