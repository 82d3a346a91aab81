import Verif.Spec
import Verif.Lemmas.Num
import Verif.Lemmas.Bounds
import Verif.Lemmas.Except
import Mathlib.Tactic.Linarith
import Mathlib.Tactic.Ring
import Mathlib.Tactic.Abel
import Mathlib.Tactic.Positivity
import Mathlib.Data.Set.Finite.Lattice
import Mathlib.Data.Fintype.Pi

/-!
# The integer program: feasible points are choices

A *choice* `κ` assigns to every usable feature (by column) the position of one of its actions.
-/

set_option linter.unusedSectionVars false

namespace Recourse

variable {K : Type} [Field K] [LinearOrder K] [IsStrictOrderedRing K] [FloorRing K]

/-! ## Linear expressions -/

@[simp] theorem evalLin_nil (σ : Var → K) : evalLin σ [] = 0 := rfl

@[simp] theorem evalLin_cons (σ : Var → K) (t : Var × K) (l : List (Var × K)) :
    evalLin σ (t :: l) = t.2 * σ t.1 + evalLin σ l := by simp [evalLin]

@[simp] theorem evalLin_append (σ : Var → K) (l m : List (Var × K)) :
    evalLin σ (l ++ m) = evalLin σ l + evalLin σ m := by simp [evalLin]

theorem evalLin_flatMap {α : Type} (σ : Var → K) (l : List α) (g : α → List (Var × K)) :
    evalLin σ (l.flatMap g) = (l.map fun a => evalLin σ (g a)).sum := by
  induction l with
  | nil => rfl
  | cons a l ih => simp [List.flatMap_cons, ih]

theorem evalLin_map {α : Type} (σ : Var → K) (l : List α) (g : α → Var × K) :
    evalLin σ (l.map g) = (l.map fun a => (g a).2 * σ (g a).1).sum := by
  simp [evalLin, List.map_map, Function.comp_def]

theorem evalLin_neg (σ : Var → K) (l : List (Var × K)) :
    evalLin σ (l.map fun t => (t.1, -t.2)) = -evalLin σ l := by
  induction l with
  | nil => simp
  | cons a l ih => simp [ih]; ring

/-- Indicators over `range n` that are 1 at `k` only pick the value at `k`. -/
theorem evalLin_zip_pick {σ : Var → K} {j k : ℕ} {vals : List K} (hk : k < vals.length)
    (hu : ∀ i < vals.length, σ (.u j i) = if i = k then 1 else 0) :
    evalLin σ (((List.range vals.length).map (Var.u j)).zip vals) = vals.getD k 0 := by
  have key : ∀ (vals : List K) (off : ℕ),
      (∀ i < vals.length, σ (.u j (off + i)) = if off + i = k then 1 else 0) →
      evalLin σ (((List.range' off vals.length).map (Var.u j)).zip vals)
        = if off ≤ k then vals.getD (k - off) 0 else 0 := by
    intro vals
    induction vals with
    | nil => intro off _; simp
    | cons v vals ih =>
      intro off h
      have h0 := h 0 (by simp)
      rw [Nat.add_zero] at h0
      have ih' := ih (off + 1) (fun i hi => by
        have := h (i + 1) (by simp; omega)
        rw [show off + (i + 1) = off + 1 + i by omega] at this
        exact this)
      simp only [List.length_cons, List.range'_succ, List.map_cons, List.zip_cons_cons, evalLin_cons, h0, ih']
      rcases lt_trichotomy off k with hlt | rfl | hgt
      · have e : k - off = (k - (off + 1)) + 1 := by omega
        rw [if_neg (by omega), if_pos (by omega), if_pos (by omega), e, List.getD_cons_succ]
        ring
      · simp
      · rw [if_neg (by omega), if_neg (by omega), if_neg (by omega)]; ring
  have := key vals 0 (by simpa using hu)
  rw [← List.range_eq_range'] at this
  simpa using this

/-- Binary indicators that sum to 1 have exactly one that is on. -/
theorem pick_exists {σ : Var → K} {j n : ℕ} (hb : ∀ i < n, σ (.u j i) = 0 ∨ σ (.u j i) = 1)
    (hs : ((List.range n).map fun i => σ (.u j i)).sum = 1) :
    ∃ k < n, ∀ i < n, σ (.u j i) = if i = k then 1 else 0 := by
  have hnn : ∀ m ≤ n, 0 ≤ ((List.range m).map fun i => σ (.u j i)).sum := by
    intro m hm
    apply List.sum_nonneg
    intro v hv
    obtain ⟨i, hi, rfl⟩ := List.mem_map.mp hv
    rcases hb i (by simp at hi; omega) with h | h <;> simp [h]
  have key : ∀ m ≤ n,
      (((List.range m).map fun i => σ (.u j i)).sum = 0 → ∀ i < m, σ (.u j i) = 0) ∧
      (((List.range m).map fun i => σ (.u j i)).sum = 1 →
        ∃ k < m, ∀ i < m, σ (.u j i) = if i = k then 1 else 0) := by
    intro m
    induction m with
    | zero => intro _; simp
    | succ m ih =>
      intro hm
      obtain ⟨ih0, ih1⟩ := ih (by omega)
      have hn := hnn m (by omega)
      simp only [List.range_succ, List.map_append, List.map_cons, List.map_nil, List.sum_append,
        List.sum_cons, List.sum_nil, add_zero]
      rcases hb m (by omega) with h | h
      · rw [h, add_zero]
        constructor
        · intro hs i hi
          rcases Nat.lt_succ_iff_lt_or_eq.mp hi with h' | rfl
          · exact ih0 hs i h'
          · exact h
        · intro hs
          obtain ⟨k, hk, hu⟩ := ih1 hs
          refine ⟨k, by omega, fun i hi => ?_⟩
          rcases Nat.lt_succ_iff_lt_or_eq.mp hi with h' | rfl
          · exact hu i h'
          · rw [h, if_neg (by omega)]
      · rw [h]
        constructor
        · intro hs; linarith
        · intro hs
          have h0 : ((List.range m).map fun i => σ (.u j i)).sum = 0 := by linarith
          refine ⟨m, by omega, fun i hi => ?_⟩
          rcases Nat.lt_succ_iff_lt_or_eq.mp hi with h' | rfl
          · rw [ih0 h0 i h', if_neg (by omega)]
          · rw [h, if_pos rfl]
  exact (key n le_rfl).2 hs

/-! ## Well-formed features and choices -/

/-- What the build checks guarantee about the list of usable features of a program over `n` columns. -/
structure FeatsOK (n : ℕ) (feats : List (Feat K)) : Prop where
  nodup : (feats.map (·.idx)).Nodup
  lt : ∀ f ∈ feats, f.idx < n
  two : ∀ f ∈ feats, 2 ≤ f.actions.length
  len : ∀ f ∈ feats, f.actions.length = f.costs.length
  a0 : ∀ f ∈ feats, f.actions.getD 0 1 = 0
  c0 : ∀ f ∈ feats, f.costs.getD 0 1 = 0
  nodupA : ∀ f ∈ feats, f.actions.Nodup
  nodupC : ∀ f ∈ feats, f.costs.Nodup
  cpos : ∀ f ∈ feats, ∀ k, 0 < k → k < f.costs.length → 0 < f.costs.getD k 0
  null : ∀ f ∈ feats, f.kNull < f.actions.length

/-- The action of feature `f` under choice `κ`. -/
def Feat.act (f : Feat K) (κ : ℕ → ℕ) : K := f.actions.getD (κ f.idx) 0

/-- The cost of feature `f` under choice `κ`. -/
def Feat.cst (f : Feat K) (κ : ℕ → ℕ) : K := f.costs.getD (κ f.idx) 0

/-- `κ` picks an existing action for every feature. -/
def Choice (feats : List (Feat K)) (κ : ℕ → ℕ) : Prop := ∀ f ∈ feats, κ f.idx < f.actions.length

/-- The point `σ` encodes choice `κ`. -/
structure Encodes (feats : List (Feat K)) (κ : ℕ → ℕ) (σ : Var → K) : Prop where
  lt : Choice feats κ
  u : ∀ f ∈ feats, ∀ k < f.actions.length, σ (.u f.idx k) = if k = κ f.idx then 1 else 0
  a : ∀ f ∈ feats, σ (.a f.idx) = f.act κ

/-- The total change of score under a choice. -/
def choiceGain (feats : List (Feat K)) (κ : ℕ → ℕ) : K := (feats.map fun f => f.coef * f.act κ).sum

/-- The number of changed features. -/
def choiceSize (feats : List (Feat K)) (κ : ℕ → ℕ) : ℕ := feats.countP fun f => decide (κ f.idx ≠ 0)

/-- The subset limit as it is posed: column positions taken as positions in the feature list. -/
def LimitOK (feats : List (Feat K)) (κ : ℕ → ℕ) (c : SubsetLimit) : Prop :=
  ∃ fs : List (Feat K), c.indices.map (feats[·]?) = fs.map some ∧
    c.lb ≤ (fs.countP fun f => decide (κ f.idx ≠ f.kNull) : ℕ) ∧
    ((fs.countP fun f => decide (κ f.idx ≠ f.kNull) : ℕ) : Int) ≤ c.ub

/-- The choice satisfies all conditions of the program. -/
structure ChoiceOK (p : BuildArgs K) (κ : ℕ → ℕ) : Prop where
  lt : Choice p.feats κ
  score : if 0 < p.yDesired then 0 ≤ p.score + choiceGain p.feats κ else p.score + choiceGain p.feats κ ≤ 0
  lo : max p.minItems 1 ≤ choiceSize p.feats κ
  hi : choiceSize p.feats κ ≤ p.maxItems
  limits : ∀ c ∈ p.limits, LimitOK p.feats κ c

/-- The cost variables agree with the choice. -/
structure CostVars (feats : List (Feat K)) (κ : ℕ → ℕ) (σ : Var → K) : Prop where
  c : ∀ f ∈ feats, σ (.c f.idx) = f.cst κ
  max : ∀ f ∈ feats, f.cst κ ≤ σ .maxCost
  pos : 0 ≤ σ .maxCost

theorem FeatsOK.cst_nonneg {n : ℕ} {feats : List (Feat K)} (h : FeatsOK n feats) {κ : ℕ → ℕ}
    (hκ : Choice feats κ) {f : Feat K} (hf : f ∈ feats) : 0 ≤ f.cst κ := by
  unfold Feat.cst
  rcases Nat.eq_zero_or_pos (κ f.idx) with h0 | h0
  · rw [h0]
    have h2 := h.two f hf
    have hl := h.len f hf
    have := h.c0 f hf
    rw [List.getD_eq_getElem _ _ (by omega)] at this ⊢
    rw [this]
  · exact (h.cpos f hf _ h0 (by rw [← h.len f hf]; exact hκ f hf)).le

theorem Encodes.off {feats : List (Feat K)} {κ : ℕ → ℕ} {σ : Var → K} (h : Encodes feats κ σ)
    {f : Feat K} (hf : f ∈ feats) : σ (.u f.idx 0) = if κ f.idx = 0 then 1 else 0 := by
  have := h.lt f hf
  rw [h.u f hf 0 (by omega)]
  simp only [eq_comm]

theorem sum_ite_countP {α : Type} (l : List α) (p : α → Prop) [DecidablePred p] :
    (l.map fun a => if p a then (1 : K) else 0).sum = (l.countP fun a => decide (p a) : ℕ) := by
  induction l with
  | nil => simp
  | cons a l ih =>
    rw [List.map_cons, List.sum_cons, ih, List.countP_cons]
    by_cases h : p a <;> simp [h, add_comm]

theorem countP_not' {α : Type} (l : List α) (p : α → Prop) [DecidablePred p] :
    (l.countP fun a => decide (p a)) + (l.countP fun a => decide (¬ p a)) = l.length := by
  induction l with
  | nil => rfl
  | cons a l ih =>
    rw [List.countP_cons, List.countP_cons, List.length_cons, ← ih]
    by_cases h : p a <;> simp [h] <;> omega

/-- Value of the sum of the "off" indicators. -/
theorem Encodes.offSum {feats : List (Feat K)} {κ : ℕ → ℕ} {σ : Var → K} (h : Encodes feats κ σ) :
    evalLin σ ((offVars feats).map fun v => (v, 1)) = (feats.length : K) - (choiceSize feats κ : K) := by
  unfold offVars choiceSize
  rw [List.map_map, evalLin_map]
  have : (feats.map fun f => (1 : K) * σ (Var.u f.idx 0))
      = feats.map fun f => if κ f.idx = 0 then (1 : K) else 0 := by
    apply List.map_congr_left
    intro f hf
    simp [h.off hf]
  simp only [Function.comp]
  rw [this, sum_ite_countP]
  have := countP_not' feats fun f => κ f.idx = 0
  rw [← this]
  push_cast
  ring

/-! ## Each group of constraints -/

theorem sizeCons_iff {feats : List (Feat K)} {κ : ℕ → ℕ} {σ : Var → K} (h : Encodes feats κ σ)
    (lo hi : ℕ) : (∀ c ∈ sizeCons feats lo hi, c.Sat σ) ↔
      lo ≤ choiceSize feats κ ∧ choiceSize feats κ ≤ hi := by
  unfold sizeCons
  simp only [List.mem_cons, List.not_mem_nil, or_false, forall_eq_or_imp, forall_eq, LinCon.Sat, h.offSum]
  constructor
  · rintro ⟨h1, h2⟩
    constructor
    · have : (lo : K) ≤ choiceSize feats κ := by linarith
      exact_mod_cast this
    · have : (choiceSize feats κ : K) ≤ hi := by linarith
      exact_mod_cast this
  · rintro ⟨h1, h2⟩
    have h1' : (lo : K) ≤ choiceSize feats κ := by exact_mod_cast h1
    have h2' : (choiceSize feats κ : K) ≤ hi := by exact_mod_cast h2
    constructor <;> linarith

theorem scoreCon_iff {feats : List (Feat K)} {κ : ℕ → ℕ} {σ : Var → K} (h : Encodes feats κ σ)
    (y : Int) (s : K) : (scoreCon y s feats).Sat σ ↔
      if 0 < y then 0 ≤ s + choiceGain feats κ else s + choiceGain feats κ ≤ 0 := by
  have e : evalLin σ (feats.map fun f => (Var.a f.idx, f.coef)) = choiceGain feats κ := by
    rw [evalLin_map]
    unfold choiceGain
    congr 1
    apply List.map_congr_left
    intro f hf
    simp [h.a f hf]
  unfold scoreCon LinCon.Sat
  dsimp only
  rw [e]
  split_ifs with hy
  · constructor <;> intro <;> linarith
  · constructor <;> intro <;> linarith

theorem inds_length (f : Feat K) : f.inds.length = f.actions.length := by simp [Feat.inds]

theorem Encodes.evalA {feats : List (Feat K)} {κ : ℕ → ℕ} {σ : Var → K}
    (hlt : Choice feats κ)
    (hu : ∀ f ∈ feats, ∀ k < f.actions.length, σ (.u f.idx k) = if k = κ f.idx then 1 else 0)
    {f : Feat K} (hf : f ∈ feats) : evalLin σ (f.inds.zip f.actions) = f.act κ :=
  evalLin_zip_pick (hlt f hf) (hu f hf)

theorem Encodes.evalC {n : ℕ} {feats : List (Feat K)} {κ : ℕ → ℕ} {σ : Var → K} (hok : FeatsOK n feats)
    (hlt : Choice feats κ)
    (hu : ∀ f ∈ feats, ∀ k < f.actions.length, σ (.u f.idx k) = if k = κ f.idx then 1 else 0)
    {f : Feat K} (hf : f ∈ feats) : evalLin σ (f.inds.zip f.costs) = f.cst κ := by
  have hl := hok.len f hf
  have h1 := hlt f hf
  have h2 := hu f hf
  unfold Feat.inds
  rw [hl] at *
  exact evalLin_zip_pick h1 h2

/-- The `set_a`/`pick_a` constraints of both back ends. -/
def pickCons (be : Backend) : Feat K → List (LinCon K) :=
  match be with
  | .cpx => pickConsCpx
  | .pymip => pickConsPy

/-- The cost constraints of both back ends. -/
def costCons (be : Backend) : Feat K → List (LinCon K) :=
  match be with
  | .cpx => costConsCpx
  | .pymip => costConsPy

/-- The subset limits of both back ends. -/
def limitCons (be : Backend) (feats : List (Feat K)) : SubsetLimit → Except Err (List (LinCon K)) :=
  match be with
  | .cpx => limitConsCpx feats
  | .pymip => limitConsPy feats

theorem pickCons_iff (be : Backend) (f : Feat K) (σ : Var → K) : (∀ c ∈ pickCons be f, c.Sat σ) ↔
    σ (.a f.idx) = evalLin σ (f.inds.zip f.actions) ∧
    ((List.range f.actions.length).map fun i => σ (.u f.idx i)).sum = 1 := by
  have e : evalLin σ (f.inds.map fun v => (v, (1 : K)))
      = ((List.range f.actions.length).map fun i => σ (.u f.idx i)).sum := by
    unfold Feat.inds
    rw [List.map_map, evalLin_map]
    simp
  cases be
  · simp only [pickCons, pickConsCpx, List.mem_cons, List.not_mem_nil, or_false, forall_eq_or_imp,
      forall_eq, LinCon.Sat, e, evalLin_cons]
    constructor
    · rintro ⟨h1, h2⟩; exact ⟨by linarith, h2⟩
    · rintro ⟨h1, h2⟩; exact ⟨by linarith, h2⟩
  · simp only [pickCons, pickConsPy, List.mem_cons, List.not_mem_nil, or_false, forall_eq_or_imp,
      forall_eq, LinCon.Sat, e, evalLin_cons, evalLin_append, evalLin_nil]
    constructor
    · rintro ⟨h1, h2⟩; exact ⟨by linarith, h2⟩
    · rintro ⟨h1, h2⟩; exact ⟨by linarith, h2⟩

theorem costCons_iff (be : Backend) (f : Feat K) (σ : Var → K) : (∀ c ∈ costCons be f, c.Sat σ) ↔
    σ (.c f.idx) = evalLin σ (f.inds.zip f.costs) ∧ σ (.c f.idx) ≤ σ .maxCost := by
  cases be
  · simp only [costCons, costConsCpx, List.mem_cons, List.not_mem_nil, or_false, forall_eq_or_imp,
      forall_eq, LinCon.Sat, evalLin_cons, evalLin_nil]
    constructor
    · rintro ⟨h1, h2⟩; exact ⟨by linarith, by linarith⟩
    · rintro ⟨h1, h2⟩; exact ⟨by linarith, by linarith⟩
  · simp only [costCons, costConsPy, List.mem_cons, List.not_mem_nil, or_false, forall_eq_or_imp,
      forall_eq, LinCon.Sat, evalLin_cons, evalLin_nil, evalLin_neg]
    constructor
    · rintro ⟨h1, h2⟩; exact ⟨by linarith, by linarith⟩
    · rintro ⟨h1, h2⟩; exact ⟨by linarith, by linarith⟩

theorem nullNames_ok {feats : List (Feat K)} {is : List ℕ} {vs : List Var}
    (h : nullNames feats is = .ok vs) :
    ∃ fs : List (Feat K), is.map (feats[·]?) = fs.map some ∧ vs = fs.map fun f => Var.u f.idx f.kNull := by
  unfold nullNames at h
  rw [mapM_ok_iff] at h
  induction h with
  | nil => exact ⟨[], rfl, rfl⟩
  | @cons i v is vs h1 h2 ih =>
    obtain ⟨fs, e1, e2⟩ := ih
    cases hf : feats[i]? with
    | none => rw [hf] at h1; cases h1
    | some f =>
      rw [hf] at h1
      cases h1
      exact ⟨f :: fs, by simp [hf, e1], by simp [e2]⟩

theorem limitCons_iff (be : Backend) {n : ℕ} {feats : List (Feat K)} {κ : ℕ → ℕ} {σ : Var → K}
    (hok : FeatsOK n feats) (h : Encodes feats κ σ) {c : SubsetLimit} {l : List (LinCon K)}
    (hl : limitCons be feats c = .ok l) : (∀ k ∈ l, k.Sat σ) ↔ LimitOK feats κ c := by
  have key : ∃ fs : List (Feat K), c.indices.map (feats[·]?) = fs.map some ∧
      ((∀ k ∈ l, k.Sat σ) ↔
        (c.lb : K) - (c.indices.length : K) ≤ -((fs.map fun f => σ (Var.u f.idx f.kNull)).sum) ∧
        -((fs.map fun f => σ (Var.u f.idx f.kNull)).sum) ≤ (c.ub : K) - (c.indices.length : K)) := by
    cases be
    · simp only [limitCons, limitConsCpx, bind_ok_iff] at hl
      obtain ⟨vs, hvs, hl⟩ := hl
      obtain ⟨fs, e1, e2⟩ := nullNames_ok hvs
      cases hl
      refine ⟨fs, e1, ?_⟩
      have e : evalLin σ (vs.map fun v => (v, (-1 : K)))
          = -((fs.map fun f => σ (Var.u f.idx f.kNull)).sum) := by
        rw [e2, List.map_map, evalLin_map]
        have : ∀ l : List (Feat K), (l.map fun f => (-1 : K) * σ (Var.u f.idx f.kNull)).sum
            = -((l.map fun f => σ (Var.u f.idx f.kNull)).sum) := by
          intro l; induction l with
          | nil => simp
          | cons a l ih => simp only [List.map_cons, List.sum_cons, ih]; ring
        exact this fs
      simp only [List.mem_singleton, forall_eq, LinCon.Sat, e]
      push_cast
      constructor
      · rintro ⟨h1, h2⟩; exact ⟨h1, by linarith⟩
      · rintro ⟨h1, h2⟩; exact ⟨h1, by linarith⟩
    · simp only [limitCons, limitConsPy, bind_ok_iff] at hl
      obtain ⟨vs, hvs, hl⟩ := hl
      obtain ⟨fs, e1, e2⟩ := nullNames_ok hvs
      cases hl
      refine ⟨fs, e1, ?_⟩
      have e : evalLin σ (vs.map fun v => (v, (-1 : K)))
          = -((fs.map fun f => σ (Var.u f.idx f.kNull)).sum) := by
        rw [e2, List.map_map, evalLin_map]
        have : ∀ l : List (Feat K), (l.map fun f => (-1 : K) * σ (Var.u f.idx f.kNull)).sum
            = -((l.map fun f => σ (Var.u f.idx f.kNull)).sum) := by
          intro l; induction l with
          | nil => simp
          | cons a l ih => simp only [List.map_cons, List.sum_cons, ih]; ring
        exact this fs
      simp only [List.mem_cons, List.not_mem_nil, or_false, forall_eq_or_imp, forall_eq, LinCon.Sat, e]
  obtain ⟨fs, e1, e2⟩ := key
  have hmem : ∀ f ∈ fs, f ∈ feats := by
    intro f hf
    have : some f ∈ fs.map some := List.mem_map_of_mem hf
    rw [← e1] at this
    obtain ⟨i, -, hi⟩ := List.mem_map.mp this
    exact List.mem_of_getElem? hi
  have hlen : c.indices.length = fs.length := by
    have := congrArg List.length e1; simpa using this
  have e3 : (fs.map fun f => σ (Var.u f.idx f.kNull)).sum
      = ((fs.countP fun f => decide (f.kNull = κ f.idx) : ℕ) : K) := by
    rw [← sum_ite_countP]
    congr 1
    apply List.map_congr_left
    intro f hf
    rw [h.u f (hmem f hf) _ (hok.null f (hmem f hf))]
  have e4 : (fs.countP fun f => decide (f.kNull = κ f.idx)) +
      (fs.countP fun f => decide (κ f.idx ≠ f.kNull)) = fs.length := by
    have := countP_not' fs fun f => f.kNull = κ f.idx
    simpa only [ne_eq, eq_comm] using this
  have e5 : (((fs.countP fun f => decide (f.kNull = κ f.idx)) : ℕ) : K) +
      (((fs.countP fun f => decide (κ f.idx ≠ f.kNull)) : ℕ) : K) = (fs.length : K) := by exact_mod_cast e4
  rw [e2, e3, hlen]
  constructor
  · rintro ⟨h1, h2⟩
    refine ⟨fs, e1, ?_, ?_⟩
    · have : (c.lb : K) ≤ (((fs.countP fun f => decide (κ f.idx ≠ f.kNull)) : ℕ) : K) := by linarith
      exact_mod_cast this
    · have : (((fs.countP fun f => decide (κ f.idx ≠ f.kNull)) : ℕ) : K) ≤ (c.ub : K) := by linarith
      exact_mod_cast this
  · rintro ⟨fs', e1', h1, h2⟩
    have : fs' = fs := by
      have := e1'.symm.trans e1
      exact List.map_injective_iff.mpr (Option.some_injective _) this
    subst this
    have h1' : (c.lb : K) ≤ (((fs'.countP fun f => decide (κ f.idx ≠ f.kNull)) : ℕ) : K) := by
      exact_mod_cast h1
    have h2' : (((fs'.countP fun f => decide (κ f.idx ≠ f.kNull)) : ℕ) : K) ≤ (c.ub : K) := by
      exact_mod_cast h2
    constructor <;> linarith

/-! ## The whole program -/

/-- Both back ends in one description. -/
theorem buildMip_ok {be : Backend} {p : BuildArgs K} {m : Mip K} (h : buildMip be p = .ok m) :
    ∃ lims, p.limits.mapM (limitCons be p.feats) = .ok lims ∧ (p.costType ≠ .max → p.feats ≠ []) ∧
    m = { decls := p.feats.map declA ++ p.feats.flatMap declU ++ costDecls p.costType p.feats
          cons := scoreCon p.yDesired p.score p.feats :: p.feats.flatMap (pickCons be)
            ++ sizeCons p.feats (max p.minItems 1) p.maxItems ++ lims.flatten
            ++ (if p.costType = .max then p.feats.flatMap (costCons be) else [])
          sos := p.feats.map Feat.inds
          obj := objective p.costType p.feats } := by
  cases be
  · simp only [buildMip, buildCpx, bind_ok_iff] at h
    obtain ⟨lims, h1, h2⟩ := h
    by_cases hc : p.costType ≠ .max ∧ p.feats.isEmpty = true
    · rw [if_pos hc] at h2; cases h2
    · rw [if_neg hc] at h2
      refine ⟨lims, h1, fun hne he => hc ⟨hne, by simp [he]⟩, ?_⟩
      exact (Except.ok.inj h2).symm
  · simp only [buildMip, buildPy, bind_ok_iff] at h
    obtain ⟨lims, h1, h2⟩ := h
    by_cases hc : p.costType ≠ .max ∧ p.feats.isEmpty = true
    · rw [if_pos hc] at h2; cases h2
    · rw [if_neg hc] at h2
      refine ⟨lims, h1, fun hne he => hc ⟨hne, by simp [he]⟩, ?_⟩
      exact (Except.ok.inj h2).symm

theorem declU_iff (f : Feat K) (σ : Var → K) : (∀ d ∈ declU f, d.Sat σ) ↔
    ∀ i < f.actions.length, σ (.u f.idx i) = 0 ∨ σ (.u f.idx i) = 1 := by
  unfold declU Feat.inds
  simp only [List.map_map, List.mem_map, List.mem_range, Function.comp]
  constructor
  · intro h i hi
    have := (h _ ⟨i, hi, rfl⟩).2.2 rfl
    exact this
  · rintro h d ⟨i, hi, rfl⟩
    refine ⟨?_, ?_, fun _ => h i hi⟩
    · rcases h i hi with h | h <;> simp [h]
    · rintro u hu
      cases hu
      rcases h i hi with h | h <;> simp [h]

theorem getD_mem' {l : List K} {k : ℕ} (h : k < l.length) : l.getD k 0 ∈ l := by
  rw [List.getD_eq_getElem _ _ h]; exact List.getElem_mem _

/-- **Feasible points are choices**: a point is feasible iff it encodes a choice that satisfies the
score, size and subset-limit conditions, with matching cost variables for cost type `max`. -/
theorem feasible_iff {be : Backend} {p : BuildArgs K} {m : Mip K} {n : ℕ} (h : buildMip be p = .ok m)
    (hok : FeatsOK n p.feats) (σ : Var → K) :
    m.Feasible σ ↔ ∃ κ, Encodes p.feats κ σ ∧ ChoiceOK p κ ∧
      (p.costType = .max → CostVars p.feats κ σ) := by
  obtain ⟨lims, hlims, hne, rfl⟩ := buildMip_ok h
  constructor
  · rintro ⟨hd, hc, -⟩
    dsimp only at hd hc
    have hb : ∀ f ∈ p.feats, ∀ i < f.actions.length, σ (.u f.idx i) = 0 ∨ σ (.u f.idx i) = 1 := by
      intro f hf
      rw [← declU_iff]
      intro d hdm
      apply hd
      simp only [List.mem_append, List.mem_flatMap]
      exact Or.inl (Or.inr ⟨f, hf, hdm⟩)
    have hp : ∀ f ∈ p.feats, σ (.a f.idx) = evalLin σ (f.inds.zip f.actions) ∧
        ((List.range f.actions.length).map fun i => σ (.u f.idx i)).sum = 1 := by
      intro f hf
      rw [← pickCons_iff be]
      intro c hcm
      apply hc
      simp only [List.mem_append, List.mem_cons, List.mem_flatMap]
      exact Or.inl (Or.inl (Or.inl (Or.inr ⟨f, hf, hcm⟩)))
    have hk : ∀ f ∈ p.feats, ∃ k, k < f.actions.length ∧
        ∀ i < f.actions.length, σ (.u f.idx i) = if i = k then 1 else 0 := by
      intro f hf
      obtain ⟨k, h1, h2⟩ := pick_exists (hb f hf) (hp f hf).2
      exact ⟨k, h1, h2⟩
    -- the choice, as a function of the column
    have hκ : ∃ κ : ℕ → ℕ, ∀ f ∈ p.feats, κ f.idx < f.actions.length ∧
        ∀ i < f.actions.length, σ (.u f.idx i) = if i = κ f.idx then 1 else 0 := by
      have : ∀ j : ℕ, ∃ k, ∀ f ∈ p.feats, f.idx = j → k < f.actions.length ∧
          ∀ i < f.actions.length, σ (.u f.idx i) = if i = k then 1 else 0 := by
        intro j
        by_cases hj : ∃ f ∈ p.feats, f.idx = j
        · obtain ⟨f, hf, rfl⟩ := hj
          obtain ⟨k, h1, h2⟩ := hk f hf
          refine ⟨k, fun g hg hgi => ?_⟩
          have : g = f := List.inj_on_of_nodup_map hok.nodup hg hf hgi
          subst this
          exact ⟨h1, h2⟩
        · exact ⟨0, fun f hf hfi => absurd ⟨f, hf, hfi⟩ hj⟩
      choose κ hκ using this
      exact ⟨κ, fun f hf => hκ f.idx f hf rfl⟩
    obtain ⟨κ, hκ⟩ := hκ
    have hlt : Choice p.feats κ := fun f hf => (hκ f hf).1
    have henc : Encodes p.feats κ σ :=
      ⟨hlt, fun f hf => (hκ f hf).2, fun f hf => by
        rw [(hp f hf).1]; exact Encodes.evalA hlt (fun f hf => (hκ f hf).2) hf⟩
    refine ⟨κ, henc, ⟨hlt, ?_, ?_, ?_, ?_⟩, ?_⟩
    · rw [← scoreCon_iff henc]
      apply hc; simp
    · have := (sizeCons_iff henc (max p.minItems 1) p.maxItems).mp (fun c hcm => hc c (by
        simp only [List.mem_append, List.mem_cons]
        exact Or.inl (Or.inl (Or.inr hcm))))
      exact this.1
    · have := (sizeCons_iff henc (max p.minItems 1) p.maxItems).mp (fun c hcm => hc c (by
        simp only [List.mem_append, List.mem_cons]
        exact Or.inl (Or.inl (Or.inr hcm))))
      exact this.2
    · intro c hcm
      obtain ⟨l, hl, hcl⟩ := mapM_ok_mem' hlims hcm
      rw [← limitCons_iff be hok henc hcl]
      intro k hkl
      apply hc
      simp only [List.mem_append, List.mem_cons, List.mem_flatten]
      exact Or.inl (Or.inr ⟨l, hl, hkl⟩)
    · intro hmax
      have hcc : ∀ f ∈ p.feats, σ (.c f.idx) = evalLin σ (f.inds.zip f.costs) ∧
          σ (.c f.idx) ≤ σ .maxCost := by
        intro f hf
        rw [← costCons_iff be]
        intro c hcm
        apply hc
        rw [if_pos hmax]
        simp only [List.mem_append, List.mem_cons, List.mem_flatMap]
        exact Or.inr ⟨f, hf, hcm⟩
      have hev : ∀ f ∈ p.feats, evalLin σ (f.inds.zip f.costs) = f.cst κ :=
        fun f hf => Encodes.evalC hok hlt (fun f hf => (hκ f hf).2) hf
      refine ⟨fun f hf => by rw [(hcc f hf).1, hev f hf], fun f hf => ?_, ?_⟩
      · rw [← hev f hf, ← (hcc f hf).1]; exact (hcc f hf).2
      · have := hd { v := .maxCost, kind := .cont, lb := 0, ub := none } (by
          simp [hmax, costDecls])
        exact this.1
  · rintro ⟨κ, henc, hch, hcost⟩
    have hb : ∀ f ∈ p.feats, ∀ i < f.actions.length, σ (.u f.idx i) = 0 ∨ σ (.u f.idx i) = 1 := by
      intro f hf i hi
      rw [henc.u f hf i hi]; split_ifs <;> simp
    refine ⟨?_, ?_, ?_⟩
    · intro d hd
      simp only [List.mem_append, List.mem_map, List.mem_flatMap] at hd
      rcases hd with (⟨f, hf, rfl⟩ | ⟨f, hf, hd⟩) | hd
      · have hm : f.act κ ∈ f.actions := getD_mem' (henc.lt f hf)
        refine ⟨?_, ?_, by intro h; cases h⟩
        · change npMin f.actions ≤ σ (.a f.idx)
          rw [henc.a f hf]; exact npMin_le hm
        · rintro u hu
          cases hu
          change σ (.a f.idx) ≤ npMax f.actions
          rw [henc.a f hf]; exact le_npMax hm
      · exact (declU_iff f σ).mpr (hb f hf) d hd
      · cases hct : p.costType with
        | max =>
          rw [hct] at hd
          have hc := hcost hct
          simp only [costDecls, List.mem_cons, List.mem_map] at hd
          rcases hd with rfl | ⟨f, hf, rfl⟩
          · exact ⟨hc.pos, by rintro u ⟨⟩, by intro h; cases h⟩
          · refine ⟨?_, by rintro u ⟨⟩, by intro h; cases h⟩
            change 0 ≤ σ (.c f.idx)
            rw [hc.c f hf]; exact hok.cst_nonneg henc.lt hf
        | total => rw [hct] at hd; simp [costDecls] at hd
        | loc => rw [hct] at hd; simp [costDecls] at hd
    · intro c hc
      simp only [List.mem_append, List.mem_cons, List.mem_flatMap, List.mem_flatten] at hc
      rcases hc with (((rfl | ⟨f, hf, hc⟩) | hc) | ⟨l, hl, hc⟩) | hc
      · exact (scoreCon_iff henc _ _).mpr hch.score
      · refine (pickCons_iff be f σ).mpr ⟨?_, ?_⟩ c hc
        · rw [henc.a f hf]; exact (Encodes.evalA henc.lt henc.u hf).symm
        · have hk := henc.lt f hf
          have : (List.range f.actions.length).map (fun i => σ (.u f.idx i))
              = (List.range f.actions.length).map (fun i => if i = κ f.idx then (1 : K) else 0) := by
            apply List.map_congr_left
            intro i hi
            exact henc.u f hf i (List.mem_range.mp hi)
          rw [this, sum_ite_countP]
          have : (List.range f.actions.length).countP (fun a => decide (a = κ f.idx)) = 1 := by
            have := List.count_eq_one_of_mem (List.nodup_range (n := f.actions.length))
              (List.mem_range.mpr hk)
            rw [List.count] at this
            rw [← this]
            apply List.countP_congr
            intro a _
            simp
          rw [this]; simp
      · exact (sizeCons_iff henc _ _).mpr ⟨hch.lo, hch.hi⟩ c hc
      · obtain ⟨k, hk, hkl⟩ := mapM_ok_mem hlims hl
        exact (limitCons_iff be hok henc hkl).mpr (hch.limits k hk) c hc
      · split_ifs at hc with hmax
        · obtain ⟨f, hf, hc⟩ := List.mem_flatMap.mp hc
          have hcv := hcost hmax
          refine (costCons_iff be f σ).mpr ⟨?_, ?_⟩ c hc
          · rw [hcv.c f hf]; exact (Encodes.evalC hok henc.lt henc.u hf).symm
          · rw [hcv.c f hf]; exact hcv.max f hf
        · simp at hc
    · intro s hs
      simp only [List.mem_map] at hs
      obtain ⟨f, hf, rfl⟩ := hs
      intro v hv v' hv' h1 h2
      unfold Feat.inds at hv hv'
      simp only [List.mem_map, List.mem_range] at hv hv'
      obtain ⟨i, hi, rfl⟩ := hv
      obtain ⟨i', hi', rfl⟩ := hv'
      rw [henc.u f hf i hi] at h1
      rw [henc.u f hf i' hi'] at h2
      have e1 : i = κ f.idx := by by_contra h; rw [if_neg h] at h1; exact h1 rfl
      have e2 : i' = κ f.idx := by by_contra h; rw [if_neg h] at h2; exact h2 rfl
      rw [e1, e2]

end Recourse
