import Verif.Lemmas.Mip
import Mathlib.Data.Set.Finite.Lemmas

/-!
# Choices, objective values, optima and programs with cuts
-/

set_option linter.unusedSectionVars false

namespace Recourse

variable {K : Type} [Field K] [LinearOrder K] [IsStrictOrderedRing K] [FloorRing K]

/-- The largest cost of a changed feature under a choice. -/
def choiceMax (feats : List (Feat K)) (κ : ℕ → ℕ) : K := (feats.map fun f => f.cst κ).foldl max 0

/-- The sum of costs under a choice. -/
def choiceSum (feats : List (Feat K)) (κ : ℕ → ℕ) : K := (feats.map fun f => f.cst κ).sum

/-- The smallest objective value of the points that encode a choice. -/
def choiceObj (ct : CostType) (feats : List (Feat K)) (κ : ℕ → ℕ) : K :=
  match ct with
  | .max => choiceMax feats κ + epsilon feats * choiceSum feats κ
  | _ => choiceSum feats κ

/-- Agreement of two choices on all features. -/
def Agree (feats : List (Feat K)) (κ κ' : ℕ → ℕ) : Prop := ∀ f ∈ feats, κ f.idx = κ' f.idx

theorem Agree.symm {feats : List (Feat K)} {κ κ' : ℕ → ℕ} (h : Agree feats κ κ') : Agree feats κ' κ :=
  fun f hf => (h f hf).symm

theorem Agree.act {feats : List (Feat K)} {κ κ' : ℕ → ℕ} (h : Agree feats κ κ') {f : Feat K}
    (hf : f ∈ feats) : f.act κ = f.act κ' := by unfold Feat.act; rw [h f hf]

theorem Agree.cst {feats : List (Feat K)} {κ κ' : ℕ → ℕ} (h : Agree feats κ κ') {f : Feat K}
    (hf : f ∈ feats) : f.cst κ = f.cst κ' := by unfold Feat.cst; rw [h f hf]

theorem Agree.obj {feats : List (Feat K)} {κ κ' : ℕ → ℕ} (h : Agree feats κ κ') (ct : CostType) :
    choiceObj ct feats κ = choiceObj ct feats κ' := by
  have : (feats.map fun f => f.cst κ) = feats.map fun f => f.cst κ' :=
    List.map_congr_left fun f hf => h.cst hf
  unfold choiceObj choiceMax choiceSum
  rw [this]

theorem Agree.size {feats : List (Feat K)} {κ κ' : ℕ → ℕ} (h : Agree feats κ κ') :
    choiceSize feats κ = choiceSize feats κ' := by
  unfold choiceSize
  apply List.countP_congr
  intro f hf
  rw [h f hf]

theorem Agree.ok {p : BuildArgs K} {κ κ' : ℕ → ℕ} (h : Agree p.feats κ κ') (ho : ChoiceOK p κ) :
    ChoiceOK p κ' := by
  have hg : choiceGain p.feats κ = choiceGain p.feats κ' := by
    unfold choiceGain
    congr 1
    exact List.map_congr_left fun f hf => by rw [h.act hf]
  refine ⟨fun f hf => h f hf ▸ ho.lt f hf, hg ▸ ho.score, h.size ▸ ho.lo, h.size ▸ ho.hi, ?_⟩
  intro c hc
  obtain ⟨fs, e1, h1, h2⟩ := ho.limits c hc
  have hmem : ∀ f ∈ fs, f ∈ p.feats := by
    intro f hf
    have : some f ∈ fs.map some := List.mem_map_of_mem hf
    rw [← e1] at this
    obtain ⟨i, -, hi⟩ := List.mem_map.mp this
    exact List.mem_of_getElem? hi
  have : (fs.countP fun f => decide (κ f.idx ≠ f.kNull)) = fs.countP fun f => decide (κ' f.idx ≠ f.kNull) := by
    apply List.countP_congr
    intro f hf
    rw [h f (hmem f hf)]
  exact ⟨fs, e1, this ▸ h1, this ▸ h2⟩

theorem Encodes.agree {feats : List (Feat K)} {κ κ' : ℕ → ℕ} {σ : Var → K} (h : Encodes feats κ σ)
    (h' : Encodes feats κ' σ) : Agree feats κ κ' := by
  intro f hf
  have h1 := h.u f hf _ (h.lt f hf)
  rw [h'.u f hf _ (h.lt f hf)] at h1
  by_contra hne
  rw [if_neg hne, if_pos rfl] at h1
  exact zero_ne_one h1

/-! ## The maximum -/

theorem choiceMax_spec (feats : List (Feat K)) (κ : ℕ → ℕ) :
    0 ≤ choiceMax feats κ ∧ (∀ f ∈ feats, f.cst κ ≤ choiceMax feats κ) ∧
    (choiceMax feats κ = 0 ∨ ∃ f ∈ feats, choiceMax feats κ = f.cst κ) := by
  obtain ⟨h1, h2, h3⟩ := foldl_max_spec (feats.map fun f => f.cst κ) 0
  refine ⟨h2, fun f hf => h3 _ (List.mem_map_of_mem hf), ?_⟩
  rcases h1 with h1 | h1
  · exact Or.inl h1
  · obtain ⟨f, hf, e⟩ := List.mem_map.mp h1
    exact Or.inr ⟨f, hf, e.symm⟩

theorem choiceMax_le {feats : List (Feat K)} {κ : ℕ → ℕ} {c : K} (h0 : 0 ≤ c)
    (h : ∀ f ∈ feats, f.cst κ ≤ c) : choiceMax feats κ ≤ c := by
  rcases (choiceMax_spec feats κ).2.2 with e | ⟨f, hf, e⟩
  · rw [e]; exact h0
  · rw [e]; exact h f hf

/-! ## Encoding a choice -/

/-- The point that encodes `κ`, with the least admissible `max_cost`. -/
def encode (feats : List (Feat K)) (κ : ℕ → ℕ) : Var → K
  | .a j => ((feats.find? fun f => decide (f.idx = j)).map fun f => f.act κ).getD 0
  | .u j k => if k = κ j then 1 else 0
  | .c j => ((feats.find? fun f => decide (f.idx = j)).map fun f => f.cst κ).getD 0
  | .maxCost => choiceMax feats κ

theorem find_idx {feats : List (Feat K)} (hn : (feats.map (·.idx)).Nodup) {f : Feat K} (hf : f ∈ feats) :
    feats.find? (fun g => decide (g.idx = f.idx)) = some f := by
  cases h : feats.find? (fun g => decide (g.idx = f.idx)) with
  | none =>
    rw [List.find?_eq_none] at h
    exact absurd (decide_eq_true rfl) (h f hf)
  | some g =>
    have hg := List.mem_of_find?_eq_some h
    have he := List.find?_some h
    simp only [decide_eq_true_eq] at he
    rw [List.inj_on_of_nodup_map hn hg hf he]

theorem encode_encodes {n : ℕ} {feats : List (Feat K)} (hok : FeatsOK n feats) {κ : ℕ → ℕ}
    (hκ : Choice feats κ) : Encodes feats κ (encode feats κ) ∧ CostVars feats κ (encode feats κ) := by
  refine ⟨⟨hκ, fun f _ k _ => rfl, fun f hf => ?_⟩, ⟨fun f hf => ?_, fun f hf => ?_, ?_⟩⟩
  · simp only [encode, find_idx hok.nodup hf, Option.map_some, Option.getD_some]
  · simp only [encode, find_idx hok.nodup hf, Option.map_some, Option.getD_some]
  · exact (choiceMax_spec feats κ).2.1 f hf
  · exact (choiceMax_spec feats κ).1

/-! ## Objective -/

theorem evalLin_congr_map {α : Type} (σ : Var → K) (l : List α) (g : α → Var) (e : K) (h : α → K)
    (hh : ∀ a ∈ l, σ (g a) = h a) : evalLin σ (l.map fun a => (g a, e)) = e * (l.map h).sum := by
  induction l with
  | nil => simp
  | cons a l ih =>
    rw [List.map_cons, evalLin_cons, ih fun b hb => hh b (List.mem_cons_of_mem _ hb), List.map_cons,
      List.sum_cons, hh a List.mem_cons_self]
    ring

/-- Objective value of a point that encodes a choice. -/
theorem objective_eq {n : ℕ} {feats : List (Feat K)} (hok : FeatsOK n feats) {ct : CostType} {κ : ℕ → ℕ}
    {σ : Var → K} (he : Encodes feats κ σ) (hc : ct = .max → CostVars feats κ σ) :
    evalLin σ (objective ct feats) = (if ct = .max then σ .maxCost - choiceMax feats κ else 0)
      + choiceObj ct feats κ := by
  cases ct with
  | max =>
    have hcv := hc rfl
    simp only [objective, evalLin_cons, choiceObj, if_true]
    rw [evalLin_congr_map σ feats (fun f => Var.c f.idx) (epsilon feats) (fun f => f.cst κ)
      (fun f hf => hcv.c f hf)]
    unfold choiceSum
    ring
  | total =>
    simp only [objective, choiceObj, reduceCtorEq, if_false, zero_add]
    rw [evalLin_flatMap]
    unfold choiceSum
    congr 1
    exact List.map_congr_left fun f hf => Encodes.evalC hok he.lt he.u hf
  | loc =>
    simp only [objective, choiceObj, reduceCtorEq, if_false, zero_add]
    rw [evalLin_flatMap]
    unfold choiceSum
    congr 1
    exact List.map_congr_left fun f hf => Encodes.evalC hok he.lt he.u hf

/-! ## Programs with cuts -/

/-- `m` is the program of `p`, restricted to choices with `P`. -/
structure CutOf (p : BuildArgs K) (m : Mip K) (P : (ℕ → ℕ) → Prop) : Prop where
  obj : m.obj = objective p.costType p.feats
  congr : ∀ κ κ', Agree p.feats κ κ' → P κ → P κ'
  feas : ∀ σ, m.Feasible σ ↔ ∃ κ, Encodes p.feats κ σ ∧ ChoiceOK p κ ∧ P κ ∧
    (p.costType = .max → CostVars p.feats κ σ)

theorem CutOf.base {be : Backend} {p : BuildArgs K} {m : Mip K} {n : ℕ} (h : buildMip be p = .ok m)
    (hok : FeatsOK n p.feats) : CutOf p m fun _ => True := by
  refine ⟨?_, fun _ _ _ h => h, fun σ => ?_⟩
  · obtain ⟨lims, -, -, rfl⟩ := buildMip_ok h; rfl
  · rw [feasible_iff h hok]
    simp only [true_and]

theorem CutOf.feasible_encode {n : ℕ} {p : BuildArgs K} {m : Mip K} {P : (ℕ → ℕ) → Prop}
    (h : CutOf p m P) (hok : FeatsOK n p.feats) {κ : ℕ → ℕ} (hκ : ChoiceOK p κ) (hP : P κ) :
    m.Feasible (encode p.feats κ) ∧ m.objVal (encode p.feats κ) = choiceObj p.costType p.feats κ := by
  obtain ⟨h1, h2⟩ := encode_encodes hok hκ.lt
  refine ⟨(h.feas _).mpr ⟨κ, h1, hκ, hP, fun _ => h2⟩, ?_⟩
  unfold Mip.objVal
  rw [h.obj, objective_eq hok h1 fun _ => h2]
  split_ifs
  · simp [encode]
  · simp

theorem CutOf.infeasible_iff {n : ℕ} {p : BuildArgs K} {m : Mip K} {P : (ℕ → ℕ) → Prop}
    (h : CutOf p m P) (hok : FeatsOK n p.feats) :
    (¬ ∃ σ, m.Feasible σ) ↔ ¬ ∃ κ, ChoiceOK p κ ∧ P κ := by
  apply not_congr
  constructor
  · rintro ⟨σ, hσ⟩
    obtain ⟨κ, -, h1, h2, -⟩ := (h.feas σ).mp hσ
    exact ⟨κ, h1, h2⟩
  · rintro ⟨κ, h1, h2⟩
    exact ⟨_, (h.feasible_encode hok h1 h2).1⟩

/-- The objective value of any feasible point is at least that of its choice. -/
theorem CutOf.le_obj {n : ℕ} {p : BuildArgs K} {m : Mip K} {P : (ℕ → ℕ) → Prop}
    (h : CutOf p m P) (hok : FeatsOK n p.feats) {κ : ℕ → ℕ} {σ : Var → K} (he : Encodes p.feats κ σ)
    (hc : p.costType = .max → CostVars p.feats κ σ) : choiceObj p.costType p.feats κ ≤ m.objVal σ := by
  unfold Mip.objVal
  rw [h.obj, objective_eq hok he hc]
  split_ifs with hm
  · have hcv := hc hm
    have := choiceMax_le hcv.pos hcv.max
    linarith
  · simp

/-- What an optimal point says. -/
theorem CutOf.optimal_spec {n : ℕ} {p : BuildArgs K} {m : Mip K} {P : (ℕ → ℕ) → Prop}
    (h : CutOf p m P) (hok : FeatsOK n p.feats) {σ : Var → K} (ho : m.Optimal σ) :
    ∃ κ, Encodes p.feats κ σ ∧ ChoiceOK p κ ∧ P κ ∧
      (p.costType = .max → CostVars p.feats κ σ ∧ σ .maxCost = choiceMax p.feats κ) ∧
      m.objVal σ = choiceObj p.costType p.feats κ ∧
      ∀ κ', ChoiceOK p κ' → P κ' → choiceObj p.costType p.feats κ ≤ choiceObj p.costType p.feats κ' := by
  obtain ⟨hf, hmin⟩ := ho
  obtain ⟨κ, he, hκ, hP, hc⟩ := (h.feas σ).mp hf
  obtain ⟨h1, h2⟩ := h.feasible_encode hok hκ hP
  have hle := hmin _ h1
  have hge := h.le_obj hok he hc
  have heq : m.objVal σ = choiceObj p.costType p.feats κ := le_antisymm (hle.trans h2.le) hge
  refine ⟨κ, he, hκ, hP, fun hm => ⟨hc hm, ?_⟩, heq, fun κ' h1' h2' => ?_⟩
  · have := objective_eq hok he hc
    unfold Mip.objVal at heq
    rw [h.obj, this, if_pos hm] at heq
    linarith
  · obtain ⟨h3, h4⟩ := h.feasible_encode hok h1' h2'
    rw [← heq, ← h4]
    exact hmin _ h3

/-- The choices of a program are finite in number, up to agreement. -/
theorem choices_finite {n : ℕ} {feats : List (Feat K)} (hok : FeatsOK n feats) (ct : CostType) :
    {v | ∃ κ, Choice feats κ ∧ v = choiceObj ct feats κ}.Finite := by
  obtain ⟨B, hB⟩ : ∃ B, ∀ f ∈ feats, f.actions.length ≤ B := by
    refine ⟨(feats.map fun f => f.actions.length).sum, fun f hf => ?_⟩
    exact List.single_le_sum (by simp) _ (List.mem_map_of_mem hf)
  let g : (Fin n → Fin (B + 1)) → K := fun φ =>
    choiceObj ct feats fun j => if hj : j < n then (φ ⟨j, hj⟩).val else 0
  apply (Set.finite_range g).subset
  rintro v ⟨κ, hκ, rfl⟩
  refine ⟨fun j => ⟨min (κ j.val) B, by omega⟩, ?_⟩
  apply Agree.obj
  intro f hf
  dsimp only
  rw [dif_pos (hok.lt f hf)]
  have := hκ f hf
  have := hB f hf
  exact min_eq_left (by omega)

/-- An optimum exists as soon as one choice is admitted. -/
theorem CutOf.optimal_exists {n : ℕ} {p : BuildArgs K} {m : Mip K} {P : (ℕ → ℕ) → Prop}
    (h : CutOf p m P) (hok : FeatsOK n p.feats) (hex : ∃ κ, ChoiceOK p κ ∧ P κ) : ∃ σ, m.Optimal σ := by
  have hfin : {v | ∃ κ, (ChoiceOK p κ ∧ P κ) ∧ v = choiceObj p.costType p.feats κ}.Finite := by
    apply (choices_finite hok p.costType).subset
    rintro v ⟨κ, ⟨h1, -⟩, rfl⟩
    exact ⟨κ, h1.lt, rfl⟩
  obtain ⟨κ0, h0⟩ := hex
  obtain ⟨v, ⟨κ, ⟨h1, h2⟩, rfl⟩, hmin⟩ := Set.exists_min_image _ id hfin ⟨_, κ0, h0, rfl⟩
  obtain ⟨h3, h4⟩ := h.feasible_encode hok h1 h2
  refine ⟨_, h3, fun τ hτ => ?_⟩
  obtain ⟨κ', he, hκ', hP', hc⟩ := (h.feas τ).mp hτ
  rw [h4]
  exact (hmin _ ⟨κ', ⟨hκ', hP'⟩, rfl⟩).trans (h.le_obj hok he hc)

/-- An exact solver on such a program: it proves an optimum, or that there is no admitted choice. -/
theorem CutOf.exact {n : ℕ} {p : BuildArgs K} {m : Mip K} {P : (ℕ → ℕ) → Prop}
    (h : CutOf p m P) (hok : FeatsOK n p.feats) {o : Oracle K} (ho : o.Exact) (k : ℕ) :
    (∃ σ, o k m = .optimal σ ∧ m.Optimal σ) ∨
    (o k m = .infeasible ∧ ¬ ∃ κ, ChoiceOK p κ ∧ P κ) := by
  obtain ⟨hs, hc⟩ := ho
  by_cases hex : ∃ κ, ChoiceOK p κ ∧ P κ
  · left
    obtain ⟨σ, hσ⟩ := (hc k m).1 (h.optimal_exists hok hex)
    refine ⟨σ, hσ, ?_⟩
    have := hs k m
    rw [hσ] at this
    exact this
  · right
    exact ⟨(hc k m).2 ((h.infeasible_iff hok).mpr hex), hex⟩

/-- Exact solvers exist. -/
theorem exists_exact_oracle (K : Type) [Field K] [LinearOrder K] [IsStrictOrderedRing K] :
    ∃ o : Oracle K, o.Exact := by
  classical
  refine ⟨fun _ m => if h : ∃ σ, m.Optimal σ then .optimal h.choose
    else if _h : ∃ σ, m.Feasible σ then .unknown else .infeasible, ?_, ?_⟩
  · intro k m
    dsimp only
    split_ifs with h1 h2
    · exact h1.choose_spec
    · trivial
    · exact h2
  · intro k m
    constructor
    · intro h; exact ⟨h.choose, by simp [h]⟩
    · intro h
      have h1 : ¬ ∃ σ, m.Optimal σ := fun ⟨σ, hσ⟩ => h ⟨σ, hσ.1⟩
      simp [h, h1]

/-! ## Adding cuts -/

/-- A cut whose effect on encoded choices is `Q`. -/
theorem CutOf.cut {p : BuildArgs K} {m m' : Mip K} {P Q : (ℕ → ℕ) → Prop} {R : (Var → K) → Prop}
    (h : CutOf p m P) (hobj : m'.obj = m.obj) (hQ : ∀ κ κ', Agree p.feats κ κ' → Q κ → Q κ')
    (hfe : ∀ σ, m'.Feasible σ ↔ m.Feasible σ ∧ R σ)
    (hR : ∀ κ σ, Encodes p.feats κ σ → (R σ ↔ Q κ)) : CutOf p m' fun κ => P κ ∧ Q κ := by
  refine ⟨hobj.trans h.obj, fun κ κ' ha hpq => ⟨h.congr κ κ' ha hpq.1, hQ κ κ' ha hpq.2⟩, fun σ => ?_⟩
  rw [hfe, h.feas]
  constructor
  · rintro ⟨⟨κ, h1, h2, h3, h4⟩, h5⟩
    exact ⟨κ, h1, h2, ⟨h3, (hR κ σ h1).mp h5⟩, h4⟩
  · rintro ⟨κ, h1, h2, ⟨h3, h5⟩, h4⟩
    exact ⟨⟨κ, h1, h2, h3, h4⟩, (hR κ σ h1).mpr h5⟩

theorem isOn_iff_zero {σ : Var → K} {v : Var} (h : σ v = 0 ∨ σ v = 1) : isOn σ v = true ↔ σ v = 0 := by
  unfold isOn isClose isCloseTol
  rcases h with h | h
  · simp [h]
  · simp only [h, sub_zero, abs_one, abs_zero, mul_zero, add_zero, decide_eq_true_eq, one_ne_zero, iff_false,
      not_le]
    norm_num

/-- `comboCon` on binary points: it excludes exactly the pattern of `σ`. -/
theorem comboCon_iff {vars : List Var} {σ τ : Var → K}
    (hτ : ∀ v ∈ vars, τ v = 0 ∨ τ v = 1) :
    (comboCon vars σ).Sat τ ↔ ∃ v ∈ vars, ¬ (isOn σ v = true ↔ τ v = 0) := by
  unfold comboCon LinCon.Sat
  dsimp only
  have key : evalLin τ (vars.map fun v => (v, if isOn σ v = true then (-1 : K) else 1))
      = ((vars.filter fun v => !isOn σ v).length : K)
        - ((vars.filter fun v => decide (¬ (isOn σ v = true ↔ τ v = 0))).length : K) := by
    induction vars with
    | nil => simp
    | cons v vars ih =>
      have ih' := ih fun w hw => hτ w (List.mem_cons_of_mem _ hw)
      rw [List.map_cons, evalLin_cons, ih', List.filter_cons, List.filter_cons]
      rcases hτ v List.mem_cons_self with h0 | h0 <;> cases hb : isOn σ v <;> simp [h0] <;> ring
  rw [key]
  have hpos : (∃ v ∈ vars, ¬ (isOn σ v = true ↔ τ v = 0)) ↔
      0 < (vars.filter fun v => decide (¬ (isOn σ v = true ↔ τ v = 0))).length := by
    rw [List.length_pos_iff_exists_mem]
    simp only [List.mem_filter, decide_eq_true_eq]
  rw [hpos]
  constructor
  · intro h
    have : (1 : K) ≤ ((vars.filter fun v => decide (¬ (isOn σ v = true ↔ τ v = 0))).length : K) := by
      linarith
    exact_mod_cast this
  · intro h
    have : (1 : K) ≤ ((vars.filter fun v => decide (¬ (isOn σ v = true ↔ τ v = 0))).length : K) := by
      exact_mod_cast h
    linarith

theorem cutCombo_feasible (be : Backend) (feats : List (Feat K)) (σ τ : Var → K) (m : Mip K) :
    (cutCombo be feats σ m).Feasible τ ↔ m.Feasible τ ∧ (comboCon (cutVars be feats) σ).Sat τ := by
  constructor
  · rintro ⟨h1, h2, h3⟩
    exact ⟨⟨h1, fun c hc => h2 c (List.mem_append_left _ hc), h3⟩, h2 _ (by simp [cutCombo])⟩
  · rintro ⟨⟨h1, h2, h3⟩, h4⟩
    refine ⟨h1, fun c hc => ?_, h3⟩
    simp only [cutCombo, List.mem_append, List.mem_singleton] at hc
    rcases hc with hc | rfl
    · exact h2 c hc
    · exact h4

/-- The position whose indicator is used for the cut of a feature. -/
def cutPos (be : Backend) (f : Feat K) : ℕ :=
  match be with
  | .cpx => f.kNull
  | .pymip => 0

theorem cutVars_eq (be : Backend) (feats : List (Feat K)) :
    cutVars be feats = feats.map fun f => Var.u f.idx (cutPos be f) := by
  cases be <;> rfl

theorem FeatsOK.cutPos_lt {n : ℕ} {feats : List (Feat K)} (hok : FeatsOK n feats) (be : Backend)
    {f : Feat K} (hf : f ∈ feats) : cutPos be f < f.actions.length := by
  cases be
  · exact hok.null f hf
  · have := hok.two f hf; exact Nat.lt_of_lt_of_le (by norm_num [cutPos]) this

/-- A feature combination cut excludes exactly the choices with the same pattern. -/
theorem CutOf.combo {n : ℕ} {p : BuildArgs K} {m : Mip K} {P : (ℕ → ℕ) → Prop} (be : Backend)
    (h : CutOf p m P) (hok : FeatsOK n p.feats) {κ0 : ℕ → ℕ} {σ : Var → K} (he : Encodes p.feats κ0 σ) :
    CutOf p (cutCombo be p.feats σ m) fun κ => P κ ∧
      ∃ f ∈ p.feats, ¬ (κ f.idx = cutPos be f ↔ κ0 f.idx = cutPos be f) := by
  refine h.cut (m' := cutCombo be p.feats σ m) rfl ?_ (fun τ => cutCombo_feasible be p.feats σ τ m) ?_
  · rintro κ κ' ha ⟨f, hf, hne⟩
    exact ⟨f, hf, by rw [← ha f hf]; exact hne⟩
  · intro κ τ hτ
    have hval : ∀ f ∈ p.feats, ∀ (ρ : Var → K) (κ : ℕ → ℕ), Encodes p.feats κ ρ →
        ρ (Var.u f.idx (cutPos be f)) = if κ f.idx = cutPos be f then 1 else 0 := by
      intro f hf ρ κ hρ
      rw [hρ.u f hf _ (hok.cutPos_lt be hf)]
      simp only [eq_comm]
    rw [comboCon_iff]
    · rw [cutVars_eq]
      constructor
      · rintro ⟨v, hv, hne⟩
        obtain ⟨f, hf, rfl⟩ := List.mem_map.mp hv
        refine ⟨f, hf, fun hiff => hne ?_⟩
        have hσ := hval f hf σ κ0 he
        rw [isOn_iff_zero (by rw [hσ]; split_ifs <;> simp), hσ, hval f hf τ κ hτ]
        split_ifs <;> simp_all
      · rintro ⟨f, hf, hne⟩
        refine ⟨_, List.mem_map_of_mem hf, fun hiff => hne ?_⟩
        have hσ := hval f hf σ κ0 he
        rw [isOn_iff_zero (by rw [hσ]; split_ifs <;> simp), hσ, hval f hf τ κ hτ] at hiff
        split_ifs at hiff <;> simp_all
    · rw [cutVars_eq]
      intro v hv
      obtain ⟨f, hf, rfl⟩ := List.mem_map.mp hv
      rw [hval f hf τ κ hτ]
      split_ifs <;> simp

/-- The declarations needed by `remove_all_features`. -/
structure DeclsOK (feats : List (Feat K)) (m : Mip K) : Prop where
  declared : ∀ f ∈ feats, ∃ d ∈ m.decls, d.v = .u f.idx 0
  lb : ∀ d ∈ m.decls, ∀ j k, d.v = .u j k → d.lb ≤ 1

theorem DeclsOK.base {be : Backend} {p : BuildArgs K} {m : Mip K} {n : ℕ} (h : buildMip be p = .ok m)
    (hok : FeatsOK n p.feats) : DeclsOK p.feats m := by
  obtain ⟨lims, -, -, rfl⟩ := buildMip_ok h
  constructor
  · intro f hf
    refine ⟨{ v := .u f.idx 0, kind := .bin, lb := 0, ub := some 1 }, ?_, rfl⟩
    simp only [List.mem_append, List.mem_flatMap]
    refine Or.inl (Or.inr ⟨f, hf, ?_⟩)
    unfold declU Feat.inds
    simp only [List.map_map, List.mem_map, List.mem_range, Function.comp]
    exact ⟨0, by have := hok.two f hf; omega, rfl⟩
  · intro d hd j k hv
    simp only [List.mem_append, List.mem_flatMap, List.mem_map] at hd
    rcases hd with (⟨f, -, rfl⟩ | ⟨f, -, hd⟩) | hd
    · simp [declA] at hv
    · unfold declU at hd
      obtain ⟨v, -, rfl⟩ := List.mem_map.mp hd
      exact zero_le_one
    · cases hct : p.costType with
      | max =>
        rw [hct] at hd
        simp only [costDecls, List.mem_cons, List.mem_map] at hd
        rcases hd with rfl | ⟨f, -, rfl⟩
        · simp at hv
        · simp [declC] at hv
      | total => rw [hct] at hd; simp [costDecls] at hd
      | loc => rw [hct] at hd; simp [costDecls] at hd

theorem DeclsOK.combo {feats : List (Feat K)} {m : Mip K} (h : DeclsOK feats m) (be : Backend)
    (σ : Var → K) : DeclsOK feats (cutCombo be feats σ m) := ⟨h.declared, h.lb⟩

theorem DeclsOK.all {feats : List (Feat K)} {m : Mip K} (h : DeclsOK feats m) (σ : Var → K) :
    DeclsOK feats (cutAll feats σ m) := by
  constructor
  · intro f hf
    obtain ⟨d, hd, hv⟩ := h.declared f hf
    refine ⟨_, List.mem_map_of_mem hd, ?_⟩
    split_ifs <;> exact hv
  · intro d hd j k hv
    simp only [cutAll, List.mem_map] at hd
    obtain ⟨d', hd', rfl⟩ := hd
    split_ifs at hv ⊢
    · exact le_rfl
    · exact h.lb d' hd' j k hv

theorem cutAll_feasible {feats : List (Feat K)} {m : Mip K} (hd : DeclsOK feats m) (σ τ : Var → K) :
    (cutAll feats σ m).Feasible τ ↔ m.Feasible τ ∧ ∀ f ∈ feats, isOn σ (.u f.idx 0) = true → 1 ≤ τ (.u f.idx 0) := by
  have hon : ∀ v, v ∈ (offVars feats).filter (isOn σ) ↔ ∃ f ∈ feats, v = .u f.idx 0 ∧ isOn σ v = true := by
    intro v
    unfold offVars
    simp only [List.mem_filter, List.mem_map]
    constructor
    · rintro ⟨⟨f, hf, rfl⟩, h⟩; exact ⟨f, hf, rfl, h⟩
    · rintro ⟨f, hf, rfl, h⟩; exact ⟨⟨f, hf, rfl⟩, h⟩
  constructor
  · rintro ⟨h1, h2, h3⟩
    refine ⟨⟨fun d hdm => ?_, h2, h3⟩, fun f hf hof => ?_⟩
    · have := h1 _ (List.mem_map_of_mem hdm)
      split_ifs at this with hv
      · obtain ⟨f, -, hfv, -⟩ := (hon _).mp hv
        exact ⟨(hd.lb d hdm _ _ hfv).trans this.1, this.2.1, this.2.2⟩
      · exact this
    · obtain ⟨d, hdm, hv⟩ := hd.declared f hf
      have := h1 _ (List.mem_map_of_mem hdm)
      rw [if_pos ((hon _).mpr ⟨f, hf, hv, hv ▸ hof⟩)] at this
      have := this.1
      rw [← hv]; exact this
  · rintro ⟨⟨h1, h2, h3⟩, h4⟩
    refine ⟨fun d hdm => ?_, h2, h3⟩
    simp only [cutAll, List.mem_map] at hdm
    obtain ⟨d, hdm, rfl⟩ := hdm
    have hs := h1 d hdm
    split_ifs with hv
    · obtain ⟨f, hf, hfv, hof⟩ := (hon _).mp hv
      refine ⟨?_, hs.2.1, hs.2.2⟩
      have := h4 f hf (hfv ▸ hof)
      rw [← hfv] at this; exact this
    · exact hs

/-- Removing all changed features restricts to the choices that change none of them. -/
theorem CutOf.all {p : BuildArgs K} {m : Mip K} {P : (ℕ → ℕ) → Prop}
    (h : CutOf p m P) (hd : DeclsOK p.feats m) {κ0 : ℕ → ℕ} {σ : Var → K}
    (he : Encodes p.feats κ0 σ) :
    CutOf p (cutAll p.feats σ m) fun κ => P κ ∧ ∀ f ∈ p.feats, κ0 f.idx ≠ 0 → κ f.idx = 0 := by
  refine h.cut (m' := cutAll p.feats σ m) rfl ?_ (fun τ => cutAll_feasible hd σ τ) ?_
  · intro κ κ' ha hq f hf h0
    rw [← ha f hf]; exact hq f hf h0
  · intro κ τ hτ
    constructor
    · intro hr f hf h0
      have := hr f hf ((isOn_iff_zero (by rw [he.off hf]; split_ifs <;> simp)).mpr (by
        rw [he.off hf, if_neg h0]))
      rw [hτ.off hf] at this
      by_contra hne
      rw [if_neg hne] at this
      exact absurd this (by norm_num)
    · intro hq f hf hof
      rw [isOn_iff_zero (by rw [he.off hf]; split_ifs <;> simp), he.off hf] at hof
      have h0 : κ0 f.idx ≠ 0 := by intro h; rw [if_pos h] at hof; exact one_ne_zero hof
      rw [hτ.off hf, if_pos (hq f hf h0)]

end Recourse
