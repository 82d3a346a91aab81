import Verif.Lemmas.Choice
import Verif.Lemmas.Build

/-! # Vectors written by `np.put`, and what `solution_info` reports -/

set_option linter.unusedSectionVars false

namespace Recourse

section put

variable {K : Type} [Field K] [LinearOrder K] [IsStrictOrderedRing K] [FloorRing K]

/-- `np.put` on a given vector. -/
def putInto (l : List K) (iv : List (ℕ × K)) : List K := iv.foldl (fun l p => l.set p.1 p.2) l

theorem npPut_eq (n : ℕ) (iv : List (ℕ × K)) : npPut n iv = putInto (List.replicate n 0) iv := rfl

theorem putInto_length (l : List K) (iv : List (ℕ × K)) : (putInto l iv).length = l.length := by
  induction iv generalizing l with
  | nil => rfl
  | cons p t ih => simp only [putInto, List.foldl_cons] at ih ⊢; rw [ih]; simp

theorem putInto_notMem (l : List K) (iv : List (ℕ × K)) {j : ℕ} (h : ∀ p ∈ iv, p.1 ≠ j) :
    (putInto l iv)[j]? = l[j]? := by
  induction iv generalizing l with
  | nil => rfl
  | cons p t ih =>
    have := ih (l.set p.1 p.2) (fun q hq => h q (List.mem_cons_of_mem _ hq))
    simp only [putInto, List.foldl_cons] at this ⊢
    rw [this, List.getElem?_set_ne (h p (List.mem_cons_self ..))]

theorem putInto_mem (l : List K) (iv : List (ℕ × K)) (hn : (iv.map (·.1)).Nodup) {p : ℕ × K} (hp : p ∈ iv)
    (hl : p.1 < l.length) : (putInto l iv)[p.1]? = some p.2 := by
  induction iv generalizing l with
  | nil => simp at hp
  | cons q t ih =>
    simp only [List.map_cons, List.nodup_cons, List.mem_map, not_exists, not_and] at hn
    rcases List.mem_cons.mp hp with rfl | hp
    · have := putInto_notMem (l.set p.1 p.2) t (j := p.1) (fun r hr => hn.1 r hr)
      simp only [putInto, List.foldl_cons] at this ⊢
      rw [this, List.getElem?_set_self hl]
    · have := ih (l.set q.1 q.2) hn.2 hp (by simpa using hl)
      simpa only [putInto, List.foldl_cons] using this

theorem putInto_sum {M : Type} [AddCommMonoid M] (g : ℕ → K → M) (hg : ∀ j, g j 0 = 0) (l : List K)
    (iv : List (ℕ × K)) (hn : (iv.map (·.1)).Nodup) (hl : ∀ p ∈ iv, p.1 < l.length)
    (h0 : ∀ p ∈ iv, l[p.1]? = some 0) :
    ((putInto l iv).mapIdx g).sum = (l.mapIdx g).sum + (iv.map fun p => g p.1 p.2).sum := by
  induction iv generalizing l with
  | nil => simp [putInto]
  | cons p t ih =>
    simp only [List.map_cons, List.nodup_cons, List.mem_map, not_exists, not_and] at hn
    have := ih (l.set p.1 p.2) hn.2 (fun q hq => by simpa using hl q (List.mem_cons_of_mem _ hq))
      (fun q hq => by
        rw [List.getElem?_set_ne (Ne.symm (hn.1 q hq))]
        exact h0 q (List.mem_cons_of_mem _ hq))
    simp only [putInto, List.foldl_cons] at this ⊢
    rw [this, List.map_cons, List.sum_cons]
    have hp := hl p (List.mem_cons_self ..)
    have hz := h0 p (List.mem_cons_self ..)
    have key : ((l.set p.1 p.2).mapIdx g).sum = (l.mapIdx g).sum + g p.1 p.2 := by
      have e1 : (l.set p.1 p.2).mapIdx g = (l.mapIdx g).set p.1 (g p.1 p.2) := by
        rw [List.mapIdx_set]
      have e2 : l.mapIdx g = (l.mapIdx g).set p.1 0 := by
        apply List.ext_getElem?
        intro i
        rw [List.getElem?_set]
        split_ifs with h1 h2
        · subst h1; rw [List.getElem?_mapIdx, hz]; simp [hg]
        · subst h1; simp at h2; exact absurd hp (by omega)
        · rfl
      rw [e1]
      conv_rhs => rw [e2]
      have hp' : p.1 < (l.mapIdx g).length := by simpa using hp
      rw [List.sum_set, List.sum_set, if_pos hp', if_pos hp', add_zero]
      abel
    rw [key, add_assoc]

theorem npPut_sum {M : Type} [AddCommMonoid M] (g : ℕ → K → M) (hg : ∀ j, g j 0 = 0) {n : ℕ}
    {iv : List (ℕ × K)} (hn : (iv.map (·.1)).Nodup) (hl : ∀ p ∈ iv, p.1 < n) :
    ((npPut n iv).mapIdx g).sum = (iv.map fun p => g p.1 p.2).sum := by
  rw [npPut_eq, putInto_sum g hg _ _ hn (by simpa using hl)
    (fun p hp => by rw [List.getElem?_replicate, if_pos (hl p hp)])]
  have : ((List.replicate n (0 : K)).mapIdx g).sum = 0 := by
    apply List.sum_eq_zero
    intro x hx
    rw [List.mem_mapIdx] at hx
    obtain ⟨i, hi, rfl⟩ := hx
    simp [hg]
  rw [this, zero_add]

theorem dot_mapIdx (w a : List K) (h : w.length = a.length) :
    dot w a = (a.mapIdx fun j v => w.getD j 0 * v).sum := by
  induction a generalizing w with
  | nil => simp [dot]
  | cons v t ih =>
    cases w with
    | nil => simp at h
    | cons u w =>
      have := ih w (by simpa using h)
      simp only [dot, List.zipWith_cons_cons, List.sum_cons, List.mapIdx_cons, List.getD_cons_zero] at this ⊢
      rw [this]
      rfl

theorem dot_vadd (w x a : List K) (h : x.length = a.length) : dot w (vadd x a) = dot w x + dot w a := by
  induction w generalizing x a with
  | nil => simp [dot]
  | cons u w ih =>
    cases x with
    | nil => cases a with
      | nil => simp [dot, vadd]
      | cons => simp at h
    | cons y x =>
      cases a with
      | nil => simp at h
      | cons v a =>
        have := ih x a (by simpa using h)
        simp only [dot, vadd, List.zipWith_cons_cons, List.sum_cons] at this ⊢
        rw [this]; ring

theorem countP_mapIdx (a : List K) :
    (a.countP fun v => decide (v ≠ 0)) = (a.mapIdx fun _ v => if v ≠ 0 then 1 else 0).sum := by
  induction a with
  | nil => rfl
  | cons v t ih =>
    rw [List.countP_cons, ih]
    simp only [List.mapIdx_cons, List.sum_cons, decide_eq_true_eq]
    rw [add_comm]

theorem sum_mapIdx_id (a : List K) : a.sum = (a.mapIdx fun _ v => v).sum := by
  congr 1
  simp [List.mapIdx_eq_zipIdx_map]

end put

variable {K : Type} [Field K] [LinearOrder K] [IsStrictOrderedRing K] [FloorRing K]

/-- The action vector of a choice. -/
def actVec (n : ℕ) (feats : List (Feat K)) (κ : ℕ → ℕ) : List K :=
  npPut n (feats.map fun f => (f.idx, f.act κ))

/-- The cost vector of a choice. -/
def cstVec (n : ℕ) (feats : List (Feat K)) (κ : ℕ → ℕ) : List K :=
  npPut n (feats.map fun f => (f.idx, f.cst κ))

theorem actVec_length (n : ℕ) (feats : List (Feat K)) (κ : ℕ → ℕ) : (actVec n feats κ).length = n := by
  unfold actVec; rw [npPut_eq, putInto_length]; simp

theorem cstVec_length (n : ℕ) (feats : List (Feat K)) (κ : ℕ → ℕ) : (cstVec n feats κ).length = n := by
  unfold cstVec; rw [npPut_eq, putInto_length]; simp

section
variable {n : ℕ} {feats : List (Feat K)} (hok : FeatsOK n feats) {κ : ℕ → ℕ}
include hok

theorem nodup_pairs (v : Feat K → K) : ((feats.map fun f => (f.idx, v f)).map (·.1)).Nodup := by
  rw [List.map_map]; exact hok.nodup

theorem pairs_lt (v : Feat K → K) : ∀ p ∈ feats.map fun f => (f.idx, v f), p.1 < n := by
  intro p hp
  obtain ⟨f, hf, rfl⟩ := List.mem_map.mp hp
  exact hok.lt f hf

theorem put_feat (v : Feat K → K) {f : Feat K} (hf : f ∈ feats) :
    (npPut n (feats.map fun f => (f.idx, v f)))[f.idx]? = some (v f) := by
  rw [npPut_eq]
  exact putInto_mem _ _ (nodup_pairs hok v) (p := (f.idx, v f)) (List.mem_map.mpr ⟨f, hf, rfl⟩)
    (by simpa using hok.lt f hf)

omit hok in
theorem put_other (v : Feat K → K) {j : ℕ} (hj : j < n) (h : ∀ f ∈ feats, f.idx ≠ j) :
    (npPut n (feats.map fun f => (f.idx, v f)))[j]? = some 0 := by
  rw [npPut_eq, putInto_notMem]
  · rw [List.getElem?_replicate, if_pos hj]
  · intro p hp
    obtain ⟨f, hf, rfl⟩ := List.mem_map.mp hp
    exact h f hf

theorem FeatsOK.act_zero {f : Feat K} (hf : f ∈ feats) (hκ : Choice feats κ) :
    f.act κ = 0 ↔ κ f.idx = 0 := by
  have h0 := hok.a0 f hf
  have hn := hok.nodupA f hf
  have h2 := hok.two f hf
  have hl := hκ f hf
  unfold Feat.act
  constructor
  · intro h
    have e : f.actions[κ f.idx]? = f.actions[0]? := by
      rw [List.getD_eq_getElem?_getD] at h h0
      rw [List.getElem?_eq_getElem hl] at h ⊢
      rw [List.getElem?_eq_getElem (by omega)] at h0 ⊢
      simp only [Option.getD_some] at h h0
      rw [h, h0]
    exact (List.nodup_iff_injective_getElem.mp hn (a₁ := ⟨_, hl⟩) (a₂ := ⟨0, by omega⟩) (by
      simpa [List.getElem?_eq_getElem hl, List.getElem?_eq_getElem (show 0 < f.actions.length by omega)] using e)
      |> fun q => congrArg Fin.val q)
  · intro h
    rw [h]
    rw [List.getD_eq_getElem?_getD] at h0 ⊢
    rw [List.getElem?_eq_getElem (by omega)] at h0 ⊢
    exact h0

theorem FeatsOK.cst_pos {f : Feat K} (hf : f ∈ feats) (hκ : Choice feats κ) :
    (κ f.idx = 0 → f.cst κ = 0) ∧ (κ f.idx ≠ 0 → 0 < f.cst κ) := by
  have h0 := hok.c0 f hf
  have h2 := hok.two f hf
  have hl := hok.len f hf
  have hk := hκ f hf
  constructor
  · intro h
    unfold Feat.cst
    rw [h]
    rw [List.getD_eq_getElem?_getD] at h0 ⊢
    rw [List.getElem?_eq_getElem (by omega)] at h0 ⊢
    exact h0
  · intro h
    exact hok.cpos f hf _ (by omega) (by omega)

theorem actVec_countP (hκ : Choice feats κ) :
    ((actVec n feats κ).countP fun v => decide (v ≠ 0)) = choiceSize feats κ := by
  unfold actVec
  rw [countP_mapIdx, npPut_sum (fun _ v => if v ≠ 0 then 1 else 0) (by simp) (nodup_pairs hok _) (pairs_lt hok _)]
  unfold choiceSize
  rw [List.map_map]
  have : ∀ l : List (Feat K), (∀ f ∈ l, f ∈ feats) →
      (l.map ((fun p : ℕ × K => if p.2 ≠ 0 then 1 else 0) ∘ fun f => (f.idx, f.act κ))).sum
      = l.countP fun f => decide (κ f.idx ≠ 0) := by
    intro l hl
    induction l with
    | nil => rfl
    | cons f t ih =>
      rw [List.countP_cons, ← ih (fun g hg => hl g (List.mem_cons_of_mem _ hg)), List.map_cons, List.sum_cons, add_comm]
      congr 1
      have := hok.act_zero (hl f (List.mem_cons_self ..)) hκ
      simp only [Function.comp, ne_eq, this, decide_eq_true_eq]
  exact this feats fun _ h => h

theorem cstVec_sum : (cstVec n feats κ).sum = choiceSum feats κ := by
  unfold cstVec choiceSum
  rw [sum_mapIdx_id, npPut_sum (fun _ v => v) (by simp) (nodup_pairs hok _) (pairs_lt hok _), List.map_map]
  rfl

theorem actVec_dot {w : List K} (hw : w.length = n) (hc : ∀ f ∈ feats, w[f.idx]? = some f.coef) :
    dot w (actVec n feats κ) = choiceGain feats κ := by
  rw [dot_mapIdx _ _ (by rw [actVec_length, hw])]
  unfold actVec choiceGain
  rw [npPut_sum (fun j v => w.getD j 0 * v) (by simp) (nodup_pairs hok _) (pairs_lt hok _), List.map_map]
  congr 1
  apply List.map_congr_left
  intro f hf
  simp [List.getD_eq_getElem?_getD, hc f hf]

/-- Entries of the cost vector, and its maximum. -/
theorem cstVec_max (hκ : Choice feats κ) : (cstVec n feats κ).foldl max 0 = choiceMax feats κ := by
  have key : ∀ (l : List K) (a : K), a ≤ l.foldl max a ∧ (∀ v ∈ l, v ≤ l.foldl max a) ∧
      ∀ c, a ≤ c → (∀ v ∈ l, v ≤ c) → l.foldl max a ≤ c := by
    intro l
    induction l with
    | nil => intro a; simp
    | cons b t ih =>
      intro a
      obtain ⟨h1, h2, h3⟩ := ih (max a b)
      simp only [List.foldl_cons]
      refine ⟨le_trans (le_max_left _ _) h1, ?_, ?_⟩
      · intro v hv
        rcases List.mem_cons.mp hv with rfl | hv
        · exact le_trans (le_max_right _ _) h1
        · exact h2 v hv
      · intro c hc hv
        exact h3 c (max_le hc (hv b (List.mem_cons_self ..))) fun v h => hv v (List.mem_cons_of_mem _ h)
  obtain ⟨h1, h2, h3⟩ := key (cstVec n feats κ) 0
  apply le_antisymm
  · refine h3 _ (choiceMax_spec feats κ).1 ?_
    intro v hv
    obtain ⟨j, hj, rfl⟩ := List.mem_iff_getElem.mp hv
    have hjn : j < n := by rwa [cstVec_length] at hj
    by_cases hf : ∃ f ∈ feats, f.idx = j
    · obtain ⟨f, hf, rfl⟩ := hf
      have := put_feat hok (fun f => f.cst κ) hf
      change (cstVec n feats κ)[f.idx]? = _ at this
      rw [List.getElem?_eq_getElem hj] at this
      rw [Option.some.inj this]
      exact (choiceMax_spec feats κ).2.1 f hf
    · push Not at hf
      have := put_other (n := n) (fun f : Feat K => f.cst κ) hjn hf
      change (cstVec n feats κ)[j]? = _ at this
      rw [List.getElem?_eq_getElem hj] at this
      rw [Option.some.inj this]
      exact (choiceMax_spec feats κ).1
  · refine choiceMax_le h1 ?_
    intro f hf
    refine h2 _ ?_
    exact List.mem_of_getElem? (put_feat hok (fun f => f.cst κ) hf)

end

/-- The costs read from the indicators of an encoded choice are those of the choice. -/
theorem onCosts_eq {n : ℕ} {feats : List (Feat K)} (hok : FeatsOK n feats) {κ : ℕ → ℕ} {σ : Var → K}
    (he : Encodes feats κ σ) : onCosts feats σ = feats.map fun f => f.cst κ := by
  have key : ∀ l : List (Feat K), (∀ f ∈ l, f ∈ feats) → onCosts l σ = l.map fun f => f.cst κ := by
    intro l hl
    induction l with
    | nil => rfl
    | cons f t ih =>
      have iht := ih fun g hg => hl g (List.mem_cons_of_mem _ hg)
      have hf := hl f (List.mem_cons_self ..)
      unfold onCosts at iht ⊢
      rw [List.flatMap_cons, List.filter_append, List.map_append, iht, List.map_cons]
      have hu := he.u f hf
      have hk := he.lt f hf
      have hlen := hok.len f hf
      have : ((f.inds.zip f.costs).filter fun p => decide (σ p.1 ≠ 0)).map (·.2) = [f.cst κ] := by
        unfold Feat.inds Feat.cst
        rw [hlen] at hu hk ⊢
        -- general statement on lists
        have gen : ∀ (cs : List K) (s k : ℕ), k < cs.length →
            (∀ i < cs.length, σ (.u f.idx (s + i)) = if s + i = s + k then 1 else 0) →
            ((((List.range' s cs.length).map (Var.u f.idx)).zip cs).filter
              fun p => decide (σ p.1 ≠ 0)).map (·.2) = [cs.getD k 0] := by
          intro cs
          induction cs with
          | nil => intro s k hk; simp at hk
          | cons c cs ih =>
            intro s k hk hu
            rw [List.length_cons, List.range'_succ, List.map_cons, List.zip_cons_cons, List.filter_cons]
            have h0 := hu 0 (by simp)
            cases k with
            | zero =>
              simp only [Nat.add_zero, if_true] at h0
              simp only [h0, ne_eq, one_ne_zero, not_false_eq_true, decide_true, if_true, List.map_cons,
                List.getD_cons_zero]
              have : ((((List.range' (s + 1) cs.length).map (Var.u f.idx)).zip cs).filter
                  fun p => decide (σ p.1 ≠ 0)) = [] := by
                rw [List.filter_eq_nil_iff]
                intro p hp
                have hp1 := (List.of_mem_zip hp).1
                obtain ⟨i, hi, hpi⟩ := List.mem_map.mp hp1
                rw [List.mem_range'_1] at hi
                have := hu (i - s) (by simp; omega)
                rw [show s + (i - s) = i by omega, if_neg (by omega)] at this
                rw [← hpi, this]; simp
              have := congrArg (List.map (·.2)) this
              simp only [ne_eq] at this ⊢
              rw [this]; rfl
            | succ k =>
              have h0' : σ (.u f.idx s) = 0 := by simpa using h0
              simp only [h0', ne_eq, not_true_eq_false, decide_false, Bool.false_eq_true, if_false]
              have := ih (s + 1) k (by simpa using hk) (fun i hi => by
                have := hu (i + 1) (by simpa using hi)
                rw [show s + 1 + i = s + (i + 1) by omega, this]
                by_cases h : i = k <;> simp [h] <;> omega)
              simp only [ne_eq] at this
              rw [this]; rfl
        have := gen f.costs 0 (κ f.idx) hk (fun i hi => by
          simpa using hu i hi)
        rw [List.range_eq_range']
        exact this
      rw [this]; rfl
  exact key feats fun _ h => h

/-- What `solution_info` says when the solver returned a point of the program. -/
theorem solutionInfo_spec {n : ℕ} {b : Builder K} {p : BuildArgs K} {m : Mip K} {P : (ℕ → ℕ) → Prop}
    (hm : b.mip = some m) (hcut : CutOf p m P) (hok : FeatsOK n p.feats) (hf : b.feats = p.feats)
    (hct : b.costType = p.costType) (hn : b.coefs.length = n) {σ : Var → K} (hr : b.reported = some σ)
    {κ : ℕ → ℕ} (he : Encodes p.feats κ σ) (hcv : p.costType = .max → CostVars p.feats κ σ) :
    b.solutionInfo =
      { feasible := true
        cost := .fin (if p.costType = .max then σ .maxCost else choiceSum p.feats κ)
        actions := some (actVec n p.feats κ)
        costs := some (cstVec n p.feats κ)
        upperbound := .fin (m.objVal σ) } := by
  unfold Builder.solutionInfo
  rw [hr, hm]
  simp only [hf, hct, hn]
  have ha : (p.feats.map (·.idx)).zip (p.feats.map fun f => σ (Var.a f.idx))
      = p.feats.map fun f => (f.idx, f.act κ) := by
    rw [List.zip_map', List.map_inj_left]
    intro f hf; simp [he.a f hf]
  have hc : (p.feats.map (·.idx)).zip
        (if p.costType = .max then p.feats.map fun f => σ (Var.c f.idx) else onCosts p.feats σ)
      = p.feats.map fun f => (f.idx, f.cst κ) := by
    by_cases h : p.costType = .max
    · rw [if_pos h, List.zip_map', List.map_inj_left]
      intro f hf; simp [(hcv h).c f hf]
    · rw [if_neg h, onCosts_eq hok he, List.zip_map']
  have hobj : (if p.costType = .max then σ .maxCost else m.objVal σ)
      = if p.costType = .max then σ .maxCost else choiceSum p.feats κ := by
    by_cases h : p.costType = .max
    · simp [h]
    · rw [if_neg h, if_neg h]
      unfold Mip.objVal
      rw [hcut.obj, objective_eq hok he hcv, if_neg h, zero_add]
      cases hh : p.costType with
      | max => exact absurd hh h
      | _ => rfl
  rw [ha, hc, hobj]
  rfl

theorem choiceMax_cst {n : ℕ} {feats : List (Feat K)} (h2 : FeatsOK n feats) {κ : ℕ → ℕ} (hκ : Choice feats κ)
    (hsz : 1 ≤ choiceSize feats κ) : choiceMax feats κ ∈ cstVec n feats κ ∧
      ∀ v ∈ cstVec n feats κ, v ≤ choiceMax feats κ := by
  obtain ⟨m1, m2, m3⟩ := choiceMax_spec feats κ
  obtain ⟨f, hfm, hfc⟩ : ∃ f ∈ feats, κ f.idx ≠ 0 := by
    unfold choiceSize at hsz
    have := List.countP_pos_iff.mp hsz
    simpa using this
  have hpos := (h2.cst_pos hfm hκ).2 hfc
  constructor
  · rcases m3 with m3 | ⟨g, hg, m3⟩
    · have := m2 f hfm; linarith
    · rw [m3]; exact List.mem_of_getElem? (put_feat h2 (fun f => f.cst κ) hg)
  · intro v hv
    obtain ⟨j, hj, rfl⟩ := List.mem_iff_getElem.mp hv
    have hjn : j < n := by rwa [cstVec_length] at hj
    by_cases hg : ∃ g ∈ feats, g.idx = j
    · obtain ⟨g, hg, rfl⟩ := hg
      have := put_feat h2 (fun f => f.cst κ) hg
      change (cstVec n feats κ)[g.idx]? = _ at this
      rw [List.getElem?_eq_getElem hj] at this
      rw [Option.some.inj this]
      exact m2 g hg
    · push Not at hg
      have := put_other (n := n) (fun f : Feat K => f.cst κ) hjn hg
      change (cstVec n feats κ)[j]? = _ at this
      rw [List.getElem?_eq_getElem hj] at this
      rw [Option.some.inj this]
      exact m1

end Recourse
