import Verif.SpecTol
import Verif.Lemmas.FeatSpec
import Verif.Lemmas.Subset

/-! # Programs solved with tolerances -/

set_option linter.unusedSectionVars false

namespace Recourse

variable {K : Type} [Field K] [LinearOrder K] [IsStrictOrderedRing K] [FloorRing K]

/-! ## Linear expressions at nearby points -/

/-- Expressions with coefficients of size at most `C` move by at most `C · δ` per term. -/
theorem evalLin_near {σ τ : Var → K} {δ C : K} (hC : 0 ≤ C) (l : List (Var × K))
    (h : ∀ t ∈ l, |σ t.1 - τ t.1| ≤ δ ∧ |t.2| ≤ C) :
    |evalLin σ l - evalLin τ l| ≤ (l.length : K) * (C * δ) := by
  induction l with
  | nil => simp
  | cons t l ih =>
    have h1 := h t (List.mem_cons_self ..)
    have h2 := ih (fun t ht => h t (List.mem_cons_of_mem _ ht))
    rw [evalLin_cons, evalLin_cons, List.length_cons]
    have e : t.2 * σ t.1 + evalLin σ l - (t.2 * τ t.1 + evalLin τ l)
        = t.2 * (σ t.1 - τ t.1) + (evalLin σ l - evalLin τ l) := by ring
    rw [e]
    have h3 : |t.2 * (σ t.1 - τ t.1)| ≤ C * δ := by
      rw [abs_mul]
      exact mul_le_mul h1.2 h1.1 (abs_nonneg _) hC
    have h4 := abs_add_le (t.2 * (σ t.1 - τ t.1)) (evalLin σ l - evalLin τ l)
    push_cast
    linarith

/-- Integer expressions. -/
theorem evalLin_int {τ : Var → K} (l : List (Var × K)) (h : ∀ t ∈ l, (∃ z : ℤ, t.2 = z) ∧ ∃ z : ℤ, τ t.1 = z) :
    ∃ z : ℤ, evalLin τ l = z := by
  induction l with
  | nil => exact ⟨0, by simp⟩
  | cons t l ih =>
    obtain ⟨z, hz⟩ := ih (fun t ht => h t (List.mem_cons_of_mem _ ht))
    obtain ⟨⟨u, hu⟩, v, hv⟩ := h t (List.mem_cons_self ..)
    exact ⟨u * v + z, by rw [evalLin_cons, hz, hu, hv]; push_cast; ring⟩

theorem int_le_of {z w : ℤ} {r : K} (h : (z : K) ≤ w + r) (hr : r < 1) : (z : K) ≤ w := by
  have : (z : K) < ((w + 1 : ℤ) : K) := by push_cast; linarith
  have := Int.cast_lt.mp this
  exact_mod_cast Int.lt_add_one_iff.mp this

/-- The right-hand side and, for a ranged constraint, the range are integers. -/
def LinCon.IntRhs (c : LinCon K) : Prop :=
  (∃ z : ℤ, c.rhs = z) ∧ ∀ r, c.sense = .range r → ∃ z : ℤ, r = z

/-- An integer constraint that holds up to `ε` at `σ` holds exactly at a nearby integer point. -/
theorem round_sat {c : LinCon K} {σ τ : Var → K} {ε δ : K} (hc : c.IntRhs)
    (ht : ∀ t ∈ c.terms, |σ t.1 - τ t.1| ≤ δ ∧ |t.2| ≤ 1 ∧ (∃ z : ℤ, t.2 = z) ∧ ∃ z : ℤ, τ t.1 = z)
    (hl : (c.terms.length : K) * δ + ε < 1) (hs : c.SatUpTo ε σ) : c.Sat τ := by
  have h1 := evalLin_near (σ := σ) (τ := τ) zero_le_one c.terms (fun t h => ⟨(ht t h).1, (ht t h).2.1⟩)
  rw [one_mul] at h1
  obtain ⟨z, hz⟩ := evalLin_int (τ := τ) c.terms (fun t h => (ht t h).2.2)
  obtain ⟨⟨w, hw⟩, hrange⟩ := hc
  obtain ⟨h2, h3⟩ := abs_le.mp h1
  unfold LinCon.SatUpTo at hs
  unfold LinCon.Sat
  rw [hz] at h2 h3 ⊢
  rw [hw] at hs ⊢
  cases hcs : c.sense with
  | le =>
    rw [hcs] at hs; dsimp only at hs ⊢
    exact int_le_of (r := (c.terms.length : K) * δ + ε) (by linarith) hl
  | ge =>
    rw [hcs] at hs; dsimp only at hs ⊢
    exact int_le_of (r := (c.terms.length : K) * δ + ε) (by linarith) hl
  | eq =>
    rw [hcs] at hs; dsimp only at hs ⊢
    obtain ⟨h4, h5⟩ := abs_le.mp hs
    exact le_antisymm (int_le_of (r := (c.terms.length : K) * δ + ε) (by linarith) hl)
      (int_le_of (r := (c.terms.length : K) * δ + ε) (by linarith) hl)
  | range r =>
    rw [hcs] at hs; dsimp only at hs ⊢
    obtain ⟨hs1, hs2⟩ := hs
    obtain ⟨q, hq⟩ := hrange r hcs
    rw [hq] at hs2 ⊢
    refine ⟨int_le_of (r := (c.terms.length : K) * δ + ε) (by linarith) hl, ?_⟩
    have : (z : K) ≤ ((w + q : ℤ) : K) :=
      int_le_of (r := (c.terms.length : K) * δ + ε) (by push_cast; linarith) hl
    push_cast at this
    exact this

/-! ## Programs that contain a given one -/

/-- `m` has all constraints of `m0`, declares its binary variables as binary, and has the same objective. -/
structure Mip.Contains (m m0 : Mip K) : Prop where
  cons : ∀ c ∈ m0.cons, c ∈ m.cons
  bin : ∀ d ∈ m0.decls, d.kind = .bin → ∃ d' ∈ m.decls, d'.v = d.v ∧ d'.kind = .bin
  obj : m.obj = m0.obj

theorem Mip.Contains.refl (m : Mip K) : m.Contains m := ⟨fun _ h => h, fun d h hb => ⟨d, h, rfl, hb⟩, rfl⟩

theorem Mip.Contains.all {m m0 : Mip K} (h : m.Contains m0) (feats : List (Feat K)) (σ : Var → K) :
    (cutAll feats σ m).Contains m0 := by
  refine ⟨h.cons, fun d hd hb => ?_, h.obj⟩
  obtain ⟨d', h1, h2, h3⟩ := h.bin d hd hb
  unfold cutAll
  refine ⟨_, List.mem_map.mpr ⟨d', h1, rfl⟩, ?_⟩
  split_ifs
  · exact ⟨h2, h3⟩
  · exact ⟨h2, h3⟩

theorem Mip.Contains.combo {m m0 : Mip K} (h : m.Contains m0) (be : Backend) (feats : List (Feat K)) (σ : Var → K) :
    (cutCombo be feats σ m).Contains m0 :=
  ⟨fun c hc => List.mem_append_left _ (h.cons c hc), h.bin, h.obj⟩

/-- The builder still has the features of `b1`, and a program that contains the one of `b1`. -/
structure Keeps (b1 b : Builder K) : Prop where
  feats : b.feats = b1.feats
  coefs : b.coefs = b1.coefs
  costType : b.costType = b1.costType
  mip : ∀ m0, b1.mip = some m0 → ∃ m, b.mip = some m ∧ m.Contains m0

theorem Keeps.refl (b : Builder K) : Keeps b b := ⟨rfl, rfl, rfl, fun m h => ⟨m, h, .refl m⟩⟩

theorem Keeps.solve {b1 b : Builder K} (h : Keeps b1 b) (o : Oracle K) : Keeps b1 (b.solve o) := by
  have hs := SameFixed.solve o b
  refine ⟨hs.feats.trans h.feats, hs.coefs.trans h.coefs, hs.costType.trans h.costType, ?_⟩
  rw [(solve_fields o b).2.2.2.2.2.1]
  exact h.mip

theorem Keeps.remove {b1 b : Builder K} (h : Keeps b1 b) (et : EnumType) (σ : Var → K) :
    Keeps b1 (b.removeSolution et σ) := by
  have hs := SameFixed.remove et b σ
  refine ⟨hs.feats.trans h.feats, hs.coefs.trans h.coefs, hs.costType.trans h.costType, fun m0 h0 => ?_⟩
  obtain ⟨m, h1, h2⟩ := h.mip m0 h0
  cases et with
  | mutuallyExclusive => exact ⟨_, by simp [Builder.removeSolution, h1], h2.all b.feats σ⟩
  | distinctSubsets => exact ⟨_, by simp [Builder.removeSolution, h1], h2.combo b.backend b.feats σ⟩

/-- What is reported in an enumeration was reported by a solve of a builder that keeps the program. -/
theorem Keeps.popLoop {b1 : Builder K} {o : Oracle K} {et : EnumType} {fuel : ℕ} {total : Option ℕ} {b b' : Builder K}
    {acc l : List (Info K)} (h : Keeps b1 b) (hl : b.popLoop o et fuel total acc = some (b', l)) :
    Keeps b1 b' ∧ ∃ l', l = acc ++ l' ∧ ∀ i ∈ l', ∃ (c : Builder K) (σ : Var → K), Keeps b1 c ∧
      (c.solve o).reported = some σ ∧ i = (c.solve o).solutionInfo := by
  induction fuel generalizing total b acc with
  | zero =>
    cases total with
    | none => simp [Builder.popLoop] at hl
    | some n => cases n with
      | zero =>
        simp only [Builder.popLoop, Option.some.injEq, Prod.mk.injEq] at hl
        rw [← hl.1, ← hl.2]; exact ⟨h, [], by simp, by simp⟩
      | succ n => simp [Builder.popLoop] at hl
  | succ fuel ih =>
    have step : ∀ total' : Option ℕ, (match (b.solve o).reported with
        | none => some (b.solve o, acc)
        | some σ => Builder.popLoop o et fuel total' ((b.solve o).removeSolution et σ)
            (acc ++ [(b.solve o).solutionInfo])) = some (b', l) →
        Keeps b1 b' ∧ ∃ l', l = acc ++ l' ∧ ∀ i ∈ l', ∃ (c : Builder K) (σ : Var → K), Keeps b1 c ∧
          (c.solve o).reported = some σ ∧ i = (c.solve o).solutionInfo := by
      intro total' hl
      cases hr : (b.solve o).reported with
      | none =>
        rw [hr] at hl; simp only [Option.some.injEq, Prod.mk.injEq] at hl
        rw [← hl.1, ← hl.2]; exact ⟨h.solve o, [], by simp, by simp⟩
      | some σ =>
        rw [hr] at hl
        obtain ⟨h1, l', h2, h3⟩ := ih ((h.solve o).remove et σ) hl
        refine ⟨h1, (b.solve o).solutionInfo :: l', by rw [h2]; simp, fun i hi => ?_⟩
        rcases List.mem_cons.mp hi with rfl | hi
        · exact ⟨b, σ, h, hr, rfl⟩
        · exact h3 i hi
    cases total with
    | none => exact step _ hl
    | some n => cases n with
      | zero =>
        simp only [Builder.popLoop, Option.some.injEq, Prod.mk.injEq] at hl
        rw [← hl.1, ← hl.2]; exact ⟨h, [], by simp, by simp⟩
      | succ n => exact step _ hl

theorem Keeps.after {b1 b : Builder K} {o : Oracle K} (ha : b1.After o b) : Keeps b1 b := by
  induction ha with
  | refl => exact .refl b1
  | fit hr hf ih => obtain ⟨-, rfl, -⟩ := fit_ok hf; exact ih.solve o
  | populate hr hf ih => obtain ⟨-, -, hl⟩ := populate_ok hf; exact (ih.popLoop hl).1
  | user A hr ih => exact ⟨ih.feats, ih.coefs, ih.costType, ih.mip⟩

/-- What a solve reports is feasible up to the tolerances. -/
theorem reported_upTo {ε δ : K} {o : Oracle K} (ho : o.SoundUpTo ε δ) {b : Builder K} {m : Mip K} (hm : b.mip = some m)
    {σ : Var → K} (hr : (b.solve o).reported = some σ) : m.FeasibleUpTo ε δ σ := by
  have hsol : (b.solve o).sol = o b.clock m := by unfold Builder.solve; rw [hm]
  have hs := ho b.clock m
  unfold Builder.reported at hr
  rw [hsol] at hr
  cases hk : o b.clock m with
  | optimal τ =>
    rw [hk] at hr hs
    cases hb : (b.solve o).backend <;> rw [hb] at hr <;> cases hr <;> exact hs.1
  | feasible τ =>
    rw [hk] at hr hs
    cases hb : (b.solve o).backend <;> rw [hb] at hr
    · cases hr; exact hs
    · cases hr
  | infeasible => rw [hk] at hr; cases hb : (b.solve o).backend <;> rw [hb] at hr <;> cases hr
  | unknown => rw [hk] at hr; cases hb : (b.solve o).backend <;> rw [hb] at hr <;> cases hr

/-! ## The choice behind a nearly feasible point -/

/-- `σ` is within `δ` of the indicators of `κ`. -/
def NearChoice (δ : K) (feats : List (Feat K)) (κ : ℕ → ℕ) (σ : Var → K) : Prop :=
  Choice feats κ ∧ ∀ f ∈ feats, ∀ k < f.actions.length, |σ (.u f.idx k) - if k = κ f.idx then 1 else 0| ≤ δ

theorem near_choice {be : Backend} {p : BuildArgs K} {m0 m : Mip K} {n N : ℕ} {ε δ : K} {σ : Var → K}
    (h0 : buildMip be p = .ok m0) (hok : FeatsOK n p.feats) (hm : m.Contains m0) (hσ : m.FeasibleUpTo ε δ σ)
    (hδ : 0 ≤ δ) (hN : ∀ f ∈ p.feats, f.actions.length ≤ N) (ht : (N : K) * δ + ε < 1) :
    ∃ κ, NearChoice δ p.feats κ σ := by
  obtain ⟨lims, hlims, hne, rfl⟩ := buildMip_ok h0
  have hb : ∀ f ∈ p.feats, ∀ k < f.actions.length, |σ (.u f.idx k)| ≤ δ ∨ |σ (.u f.idx k) - 1| ≤ δ := by
    intro f hf k hk
    obtain ⟨d', h1, h2, h3⟩ := hm.bin { v := .u f.idx k, kind := .bin, lb := 0, ub := some 1 } (by
      simp only [List.mem_append, List.mem_flatMap]
      refine Or.inl (Or.inr ⟨f, hf, ?_⟩)
      unfold declU Feat.inds
      simp only [List.map_map, List.mem_map, List.mem_range, Function.comp]
      exact ⟨k, hk, rfl⟩) rfl
    have := (hσ.decls d' h1).2.2 h3
    rw [h2] at this
    exact this
  -- rounding
  let τ : Var → K := fun v => if |σ v| ≤ δ then 0 else 1
  have hτ : ∀ v, τ v = 0 ∨ τ v = 1 := by
    intro v; dsimp only [τ]; split_ifs <;> simp
  have hnear : ∀ f ∈ p.feats, ∀ k < f.actions.length, |σ (.u f.idx k) - τ (.u f.idx k)| ≤ δ := by
    intro f hf k hk
    dsimp only [τ]
    split_ifs with h
    · rw [sub_zero]; exact h
    · exact (hb f hf k hk).resolve_left h
  have hpick : ∀ f ∈ p.feats, ∃ k, k < f.actions.length ∧
      ∀ i < f.actions.length, τ (.u f.idx i) = if i = k then 1 else 0 := by
    intro f hf
    let c : LinCon K := { name := .other, terms := f.inds.map fun v => (v, (1 : K)), sense := .eq, rhs := 1 }
    have hmem : c ∈ m.cons := by
      apply hm.cons
      simp only [List.mem_append, List.mem_cons, List.mem_flatMap]
      refine Or.inl (Or.inl (Or.inl (Or.inr ⟨f, hf, ?_⟩)))
      cases be
      · simp [pickCons, pickConsCpx, c]
      · simp [pickCons, pickConsPy, c]
    have hsat : c.Sat τ := by
      refine round_sat (σ := σ) (ε := ε) (δ := δ) ⟨⟨1, by simp [c]⟩, fun r hr => by cases hr⟩ ?_ ?_ (hσ.cons c hmem)
      · intro t htm
        dsimp only [c] at htm
        unfold Feat.inds at htm
        simp only [List.map_map, List.mem_map, List.mem_range, Function.comp] at htm
        obtain ⟨k, hk, rfl⟩ := htm
        refine ⟨hnear f hf k hk, by simp, ⟨1, by simp⟩, ?_⟩
        rcases hτ (.u f.idx k) with h | h
        · exact ⟨0, by rw [h]; simp⟩
        · exact ⟨1, by rw [h]; simp⟩
      · have : (c.terms.length : K) ≤ N := by
          dsimp only [c]; rw [List.length_map, inds_length]; exact_mod_cast hN f hf
        have := mul_le_mul_of_nonneg_right this hδ
        linarith
    have e : evalLin τ (f.inds.map fun v => (v, (1 : K)))
        = ((List.range f.actions.length).map fun i => τ (.u f.idx i)).sum := by
      unfold Feat.inds
      rw [List.map_map, evalLin_map]
      simp
    have hs : ((List.range f.actions.length).map fun i => τ (.u f.idx i)).sum = 1 := by
      rw [← e]; exact hsat
    obtain ⟨k, h1, h2⟩ := pick_exists (fun i _ => hτ (.u f.idx i)) hs
    exact ⟨k, h1, h2⟩
  have : ∀ j : ℕ, ∃ k, ∀ f ∈ p.feats, f.idx = j → k < f.actions.length ∧
      ∀ i < f.actions.length, τ (.u f.idx i) = if i = k then 1 else 0 := by
    intro j
    by_cases hj : ∃ f ∈ p.feats, f.idx = j
    · obtain ⟨f, hf, rfl⟩ := hj
      obtain ⟨k, h1, h2⟩ := hpick f hf
      refine ⟨k, fun g hg hgi => ?_⟩
      have : g = f := List.inj_on_of_nodup_map hok.nodup hg hf hgi
      subst this
      exact ⟨h1, h2⟩
    · exact ⟨0, fun f hf hfi => absurd ⟨f, hf, hfi⟩ hj⟩
  choose κ hκ using this
  refine ⟨κ, fun f hf => (hκ f.idx f hf rfl).1, fun f hf k hk => ?_⟩
  rw [← (hκ f.idx f hf rfl).2 k hk]
  exact hnear f hf k hk

/-- The number of changed features and the subset limits hold exactly for the choice. -/
theorem near_conditions {be : Backend} {p : BuildArgs K} {m0 m : Mip K} {n N : ℕ} {ε δ : K} {σ : Var → K} {κ : ℕ → ℕ}
    (h0 : buildMip be p = .ok m0) (hok : FeatsOK n p.feats) (hm : m.Contains m0) (hσ : m.FeasibleUpTo ε δ σ)
    (hδ : 0 ≤ δ) (hk : NearChoice δ p.feats κ σ) (hf : p.feats.length ≤ N)
    (hlim : ∀ c ∈ p.limits, c.indices.length ≤ N) (ht : (N : K) * δ + ε < 1) :
    max p.minItems 1 ≤ choiceSize p.feats κ ∧ choiceSize p.feats κ ≤ p.maxItems ∧
      ∀ c ∈ p.limits, LimitOK p.feats κ c := by
  obtain ⟨lims, hlims, hne, rfl⟩ := buildMip_ok h0
  obtain ⟨hch, hu⟩ := hk
  have henc := (encode_encodes hok hch).1
  have hint : ∀ j k, ∃ z : ℤ, encode p.feats κ (.u j k) = z := by
    intro j k
    by_cases h : k = κ j
    · exact ⟨1, by simp [encode, h]⟩
    · exact ⟨0, by simp [encode, h]⟩
  have hlen : ∀ k : ℕ, k ≤ N → (k : K) * δ + ε < 1 := by
    intro k hk
    have : (k : K) ≤ N := by exact_mod_cast hk
    have := mul_le_mul_of_nonneg_right this hδ
    linarith
  have hoff : ∀ t ∈ (offVars p.feats).map fun v => (v, (1 : K)),
      |σ t.1 - encode p.feats κ t.1| ≤ δ ∧ |t.2| ≤ 1 ∧ (∃ z : ℤ, t.2 = z) ∧ ∃ z : ℤ, encode p.feats κ t.1 = z := by
    intro t htm
    unfold offVars at htm
    simp only [List.map_map, List.mem_map, Function.comp] at htm
    obtain ⟨f, hfm, rfl⟩ := htm
    exact ⟨hu f hfm 0 (by have := hok.two f hfm; omega), by simp, ⟨1, by simp⟩, hint _ _⟩
  have hsize := (sizeCons_iff henc (max p.minItems 1) p.maxItems).mp (by
    intro c hc
    have hmem : c ∈ m.cons := by
      apply hm.cons
      simp only [List.mem_append]
      exact Or.inl (Or.inl (Or.inr hc))
    have hs := hσ.cons c hmem
    unfold sizeCons at hc
    simp only [List.mem_cons, List.not_mem_nil, or_false] at hc
    rcases hc with rfl | rfl
    · refine round_sat ⟨⟨(p.feats.length : ℤ) - (p.maxItems : ℤ), by push_cast; ring⟩, fun r hr => by cases hr⟩
        hoff ?_ hs
      dsimp only; rw [List.length_map]; unfold offVars; rw [List.length_map]; exact hlen _ hf
    · refine round_sat ⟨⟨(p.feats.length : ℤ) - ((max p.minItems 1 : ℕ) : ℤ), by push_cast; ring⟩,
        fun r hr => by cases hr⟩ hoff ?_ hs
      dsimp only; rw [List.length_map]; unfold offVars; rw [List.length_map]; exact hlen _ hf)
  refine ⟨hsize.1, hsize.2, fun c hc => ?_⟩
  obtain ⟨l, hl, hlm⟩ : ∃ l, limitCons be p.feats c = .ok l ∧ l ∈ lims := by
    obtain ⟨l, h1, h2⟩ := mapM_ok_mem' hlims hc
    exact ⟨l, h2, h1⟩
  rw [← limitCons_iff be hok henc hl]
  intro k hk
  have hmem : k ∈ m.cons := by
    apply hm.cons
    simp only [List.mem_append, List.mem_flatten]
    exact Or.inl (Or.inr ⟨l, hlm, hk⟩)
  have hs := hσ.cons k hmem
  have hterms : ∀ vs : List Var, nullNames p.feats c.indices = .ok vs → vs.length = c.indices.length ∧
      ∀ t ∈ vs.map fun v => (v, (-1 : K)),
      |σ t.1 - encode p.feats κ t.1| ≤ δ ∧ |t.2| ≤ 1 ∧ (∃ z : ℤ, t.2 = z) ∧ ∃ z : ℤ, encode p.feats κ t.1 = z := by
    intro vs hvs
    obtain ⟨fs, e1, e2⟩ := nullNames_ok hvs
    have hfs : ∀ f ∈ fs, f ∈ p.feats := by
      intro f hf
      have : some f ∈ fs.map some := List.mem_map_of_mem hf
      rw [← e1] at this
      obtain ⟨i, -, hi⟩ := List.mem_map.mp this
      exact List.mem_of_getElem? hi
    refine ⟨by rw [e2, List.length_map]; have := congrArg List.length e1; simpa using this.symm, ?_⟩
    intro t htm
    rw [e2] at htm
    simp only [List.map_map, List.mem_map, Function.comp] at htm
    obtain ⟨f, hfm, rfl⟩ := htm
    exact ⟨hu f (hfs f hfm) _ (hok.null f (hfs f hfm)), by simp, ⟨-1, by simp⟩, hint _ _⟩
  have hlc : (c.indices.length : K) * δ + ε < 1 := hlen _ (hlim c hc)
  cases be
  · simp only [limitCons, limitConsCpx, bind_ok_iff] at hl
    obtain ⟨vs, hvs, hl⟩ := hl
    cases hl
    obtain ⟨h1, h2⟩ := hterms vs hvs
    rw [List.mem_singleton] at hk
    subst hk
    refine round_sat ⟨⟨c.lb - (c.indices.length : ℤ), by push_cast; ring⟩, fun r hr => ?_⟩ h2 ?_ hs
    · cases hr; exact ⟨c.ub - c.lb, rfl⟩
    · dsimp only; rw [List.length_map, h1]; exact hlc
  · simp only [limitCons, limitConsPy, bind_ok_iff] at hl
    obtain ⟨vs, hvs, hl⟩ := hl
    cases hl
    obtain ⟨h1, h2⟩ := hterms vs hvs
    simp only [List.mem_cons, List.not_mem_nil, or_false] at hk
    rcases hk with rfl | rfl
    · refine round_sat ⟨⟨c.lb - (c.indices.length : ℤ), by push_cast; ring⟩, fun r hr => by cases hr⟩ h2 ?_ hs
      dsimp only; rw [List.length_map, h1]; exact hlc
    · refine round_sat ⟨⟨c.ub - (c.indices.length : ℤ), by push_cast; ring⟩, fun r hr => by cases hr⟩ h2 ?_ hs
      dsimp only; rw [List.length_map, h1]; exact hlc

/-- The value of an action variable. -/
theorem near_action {be : Backend} {p : BuildArgs K} {m0 m : Mip K} {n N : ℕ} {ε δ R : K} {σ : Var → K} {κ : ℕ → ℕ}
    (h0 : buildMip be p = .ok m0) (hok : FeatsOK n p.feats) (hm : m.Contains m0) (hσ : m.FeasibleUpTo ε δ σ)
    (hδ : 0 ≤ δ) (hk : NearChoice δ p.feats κ σ) (hR : 0 ≤ R) {f : Feat K} (hf : f ∈ p.feats)
    (hN : f.actions.length ≤ N) (hb : ∀ a ∈ f.actions, |a| ≤ R) :
    |σ (.a f.idx) - f.act κ| ≤ ε + (N : K) * δ * R := by
  obtain ⟨lims, hlims, hne, rfl⟩ := buildMip_ok h0
  have hch := hk.1
  have henc := (encode_encodes hok hch).1
  have h1 : |σ (.a f.idx) - evalLin σ (f.inds.zip f.actions)| ≤ ε := by
    cases be
    · have := hσ.cons _ (hm.cons { name := .other, terms := (Var.a f.idx, -1) :: f.inds.zip f.actions, sense := .eq, rhs := 0 } (by
        simp only [List.mem_append, List.mem_cons, List.mem_flatMap]
        refine Or.inl (Or.inl (Or.inl (Or.inr ⟨f, hf, ?_⟩)))
        simp [pickCons, pickConsCpx]))
      unfold LinCon.SatUpTo at this
      dsimp only at this
      rw [evalLin_cons] at this
      rw [abs_sub_comm]
      convert this using 2
      ring
    · have := hσ.cons _ (hm.cons { name := .other, terms := f.inds.zip f.actions ++ [(Var.a f.idx, -1)], sense := .eq, rhs := 0 } (by
        simp only [List.mem_append, List.mem_cons, List.mem_flatMap]
        refine Or.inl (Or.inl (Or.inl (Or.inr ⟨f, hf, ?_⟩)))
        simp [pickCons, pickConsPy]))
      unfold LinCon.SatUpTo at this
      dsimp only at this
      rw [evalLin_append, evalLin_cons, evalLin_nil] at this
      rw [abs_sub_comm]
      convert this using 2
      ring
  have h2 := evalLin_near (σ := σ) (τ := encode p.feats κ) (δ := δ) hR (f.inds.zip f.actions) (by
    intro t ht
    obtain ⟨h3, h4⟩ := List.of_mem_zip ht
    unfold Feat.inds at h3
    obtain ⟨k, hkm, h3⟩ := List.mem_map.mp h3
    rw [List.mem_range] at hkm
    refine ⟨?_, hb _ h4⟩
    rw [← h3]
    exact hk.2 f hf k hkm)
  have h3 : evalLin (encode p.feats κ) (f.inds.zip f.actions) = f.act κ := by
    unfold Feat.inds Feat.act
    exact evalLin_zip_pick (hch f hf) (fun i hi => henc.u f hf i hi)
  rw [h3, List.length_zip, inds_length, min_self] at h2
  have h4 : (f.actions.length : K) * (R * δ) ≤ (N : K) * δ * R := by
    have : (f.actions.length : K) ≤ N := by exact_mod_cast hN
    have := mul_le_mul_of_nonneg_right this (mul_nonneg hR hδ)
    linarith
  have h5 := abs_add_le (σ (.a f.idx) - evalLin σ (f.inds.zip f.actions))
    (evalLin σ (f.inds.zip f.actions) - f.act κ)
  rw [sub_add_sub_cancel] at h5
  linarith

/-- A linear expression over the indicators of a feature picks the entry of the choice, up to the tolerance. -/
theorem near_pick {feats : List (Feat K)} {n N : ℕ} {δ R : K} {σ : Var → K} {κ : ℕ → ℕ} (hok : FeatsOK n feats)
    (hδ : 0 ≤ δ) (hk : NearChoice δ feats κ σ) (hR : 0 ≤ R) {f : Feat K} (hf : f ∈ feats)
    {vals : List K} (hv : vals.length = f.actions.length) (hN : f.actions.length ≤ N) (hb : ∀ a ∈ vals, |a| ≤ R) :
    |evalLin σ (f.inds.zip vals) - vals.getD (κ f.idx) 0| ≤ (N : K) * δ * R := by
  have henc := (encode_encodes hok hk.1).1
  have h2 := evalLin_near (σ := σ) (τ := encode feats κ) (δ := δ) hR (f.inds.zip vals) (by
    intro t ht
    obtain ⟨h3, h4⟩ := List.of_mem_zip ht
    unfold Feat.inds at h3
    obtain ⟨k, hkm, h3⟩ := List.mem_map.mp h3
    rw [List.mem_range] at hkm
    refine ⟨?_, hb _ h4⟩
    rw [← h3]
    exact hk.2 f hf k hkm)
  have h3 : evalLin (encode feats κ) (f.inds.zip vals) = vals.getD (κ f.idx) 0 := by
    unfold Feat.inds
    rw [← hv]
    exact evalLin_zip_pick (by rw [hv]; exact hk.1 f hf) (fun i hi => henc.u f hf i (by rw [← hv]; exact hi))
  rw [h3, List.length_zip, inds_length, hv, min_self] at h2
  have h4 : (f.actions.length : K) * (R * δ) ≤ (N : K) * δ * R := by
    have : (f.actions.length : K) ≤ N := by exact_mod_cast hN
    have := mul_le_mul_of_nonneg_right this (mul_nonneg hR hδ)
    linarith
  linarith

/-- The value of a cost variable. -/
theorem near_costVar {be : Backend} {p : BuildArgs K} {m0 m : Mip K} {n N : ℕ} {ε δ R : K} {σ : Var → K} {κ : ℕ → ℕ}
    (h0 : buildMip be p = .ok m0) (hok : FeatsOK n p.feats) (hm : m.Contains m0) (hσ : m.FeasibleUpTo ε δ σ)
    (hδ : 0 ≤ δ) (hk : NearChoice δ p.feats κ σ) (hR : 0 ≤ R) {f : Feat K} (hf : f ∈ p.feats)
    (hN : f.actions.length ≤ N) (hb : ∀ a ∈ f.costs, |a| ≤ R) (hct : p.costType = .max) :
    |σ (.c f.idx) - f.cst κ| ≤ ε + (N : K) * δ * R ∧ σ (.c f.idx) ≤ σ .maxCost + ε := by
  obtain ⟨lims, hlims, hne, rfl⟩ := buildMip_ok h0
  have hmem : ∀ c ∈ costCons be f, c ∈ m.cons := by
    intro c hc
    apply hm.cons
    rw [if_pos hct]
    simp only [List.mem_append, List.mem_flatMap]
    exact Or.inr ⟨f, hf, hc⟩
  have hcons : |σ (.c f.idx) - evalLin σ (f.inds.zip f.costs)| ≤ ε ∧ σ (.c f.idx) ≤ σ .maxCost + ε := by
    cases be
    · have h1 := hσ.cons _ (hmem _ (List.mem_cons_self ..))
      have h2 := hσ.cons _ (hmem _ (List.mem_cons_of_mem _ (List.mem_cons_self ..)))
      unfold LinCon.SatUpTo at h1 h2
      dsimp only at h1 h2
      rw [evalLin_cons] at h1
      rw [evalLin_cons, evalLin_cons, evalLin_nil] at h2
      constructor
      · rw [abs_sub_comm]; convert h1 using 2; ring
      · linarith
    · have h1 := hσ.cons _ (hmem _ (List.mem_cons_self ..))
      have h2 := hσ.cons _ (hmem _ (List.mem_cons_of_mem _ (List.mem_cons_self ..)))
      unfold LinCon.SatUpTo at h1 h2
      dsimp only at h1 h2
      rw [evalLin_cons, evalLin_neg] at h1
      rw [evalLin_cons, evalLin_cons, evalLin_nil] at h2
      constructor
      · convert h1 using 2; ring
      · linarith
  refine ⟨?_, hcons.2⟩
  have h2 := near_pick hok hδ hk hR hf (hok.len f hf).symm hN hb
  have h5 := abs_add_le (σ (.c f.idx) - evalLin σ (f.inds.zip f.costs))
    (evalLin σ (f.inds.zip f.costs) - f.cst κ)
  rw [sub_add_sub_cancel] at h5
  have : f.costs.getD (κ f.idx) 0 = f.cst κ := rfl
  rw [this] at h2
  linarith [hcons.1]

/-- The objective for the cost types with a sum. -/
theorem near_objective {be : Backend} {p : BuildArgs K} {m0 m : Mip K} {n N : ℕ} {δ R : K} {σ : Var → K} {κ : ℕ → ℕ}
    (h0 : buildMip be p = .ok m0) (hok : FeatsOK n p.feats) (hm : m.Contains m0)
    (hδ : 0 ≤ δ) (hk : NearChoice δ p.feats κ σ) (hR : 0 ≤ R) (hN : ∀ f ∈ p.feats, f.actions.length ≤ N)
    (hl : p.feats.length ≤ N) (hb : ∀ f ∈ p.feats, ∀ a ∈ f.costs, |a| ≤ R) (hct : p.costType ≠ .max) :
    |m.objVal σ - choiceSum p.feats κ| ≤ (N : K) * ((N : K) * δ * R) := by
  obtain ⟨lims, hlims, hne, rfl⟩ := buildMip_ok h0
  have e : m.objVal σ = evalLin σ (p.feats.flatMap fun f => f.inds.zip f.costs) := by
    unfold Mip.objVal
    rw [hm.obj]
    unfold objective
    cases h : p.costType with
    | max => exact absurd h hct
    | _ => rfl
  have key : ∀ l : List (Feat K), (∀ f ∈ l, f ∈ p.feats) →
      |evalLin σ (l.flatMap fun f => f.inds.zip f.costs) - (l.map fun f => f.cst κ).sum|
        ≤ (l.length : K) * ((N : K) * δ * R) := by
    intro l hl
    induction l with
    | nil => simp
    | cons f l ih =>
      have h1 := ih (fun g hg => hl g (List.mem_cons_of_mem _ hg))
      have hf := hl f (List.mem_cons_self ..)
      have h2 := near_pick hok hδ hk hR hf (hok.len f hf).symm (hN f hf) (hb f hf)
      have h3 : f.costs.getD (κ f.idx) 0 = f.cst κ := rfl
      rw [h3] at h2
      rw [List.flatMap_cons, evalLin_append, List.map_cons, List.sum_cons, List.length_cons]
      have h5 := abs_add_le (evalLin σ (f.inds.zip f.costs) - f.cst κ)
        (evalLin σ (l.flatMap fun f => f.inds.zip f.costs) - (l.map fun f => f.cst κ).sum)
      rw [show evalLin σ (f.inds.zip f.costs) - f.cst κ
          + (evalLin σ (l.flatMap fun f => f.inds.zip f.costs) - (l.map fun f => f.cst κ).sum)
        = evalLin σ (f.inds.zip f.costs) + evalLin σ (l.flatMap fun f => f.inds.zip f.costs)
          - (f.cst κ + (l.map fun f => f.cst κ).sum) by ring] at h5
      push_cast
      linarith
  rw [e]
  have h1 := key p.feats (fun _ h => h)
  have h2 : (p.feats.length : K) ≤ N := by exact_mod_cast hl
  have h3 := mul_le_mul_of_nonneg_right h2 (mul_nonneg (mul_nonneg (Nat.cast_nonneg N) hδ) hR)
  exact h1.trans h3

end Recourse
