import Verif.Props.Tolerance

/-!
# Enumerations with tolerances (C102)

`remove_all_features` and `remove_feature_combination` read the indicators with `np.isclose(value, 0.0)`, i.e. with
the absolute tolerance 1e-8.  If the integrality tolerance of the solver is not larger than that, what they read is the
choice behind the reported point, and enumerations work as with an exact solver.
-/

set_option linter.unusedSectionVars false

namespace Recourse

variable {K : Type} [Field K] [LinearOrder K] [IsStrictOrderedRing K] [FloorRing K]

variable {ext : Ext K} {o : Oracle K} {b0 b1 b b' : Builder K} {x : List K} {i : Info K} {n : ℕ}
  {be : Backend} {et : EnumType} {feats : List (Feat K)} {κ0 κ : ℕ → ℕ} {σ0 σ : Var → K} {m m0 : Mip K} {ε δ : K}

/-- The program contains the cut that removes the item `σ0`. -/
def HasCut (et : EnumType) (be : Backend) (feats : List (Feat K)) (σ0 : Var → K) (m : Mip K) : Prop :=
  match et with
  | .distinctSubsets => comboCon (cutVars be feats) σ0 ∈ m.cons
  | .mutuallyExclusive => ∀ f ∈ feats, isOn σ0 (.u f.idx 0) = true → ∃ d ∈ m.decls, d.v = .u f.idx 0 ∧ 1 ≤ d.lb

theorem HasCut.remove {b : Builder K} (h : ∃ m, b.mip = some m ∧ HasCut et be feats σ0 m) (et' : EnumType) (σ : Var → K) :
    ∃ m, (b.removeSolution et' σ).mip = some m ∧ HasCut et be feats σ0 m := by
  obtain ⟨m, hm, hc⟩ := h
  cases et' with
  | distinctSubsets =>
    refine ⟨cutCombo b.backend b.feats σ m, by simp [Builder.removeSolution, hm], ?_⟩
    cases et with
    | distinctSubsets => exact List.mem_append_left _ hc
    | mutuallyExclusive => exact hc
  | mutuallyExclusive =>
    refine ⟨cutAll b.feats σ m, by simp [Builder.removeSolution, hm], ?_⟩
    cases et with
    | distinctSubsets => exact hc
    | mutuallyExclusive =>
      intro f hf hon
      obtain ⟨d, h1, h2, h3⟩ := hc f hf hon
      unfold cutAll
      refine ⟨_, List.mem_map.mpr ⟨d, h1, rfl⟩, ?_⟩
      split_ifs
      · exact ⟨h2, le_rfl⟩
      · exact ⟨h2, h3⟩

/-- Removing an item establishes its cut. -/
theorem hasCut_remove {b : Builder K} (hm : b.mip = some m) (hok : FeatsOK n b.feats)
    (hbin : ∀ f ∈ b.feats, ∃ d ∈ m.decls, d.v = .u f.idx 0) (et : EnumType) (σ : Var → K) :
    ∃ m', (b.removeSolution et σ).mip = some m' ∧ HasCut et b.backend b.feats σ m' := by
  cases et with
  | distinctSubsets =>
    exact ⟨cutCombo b.backend b.feats σ m, by simp [Builder.removeSolution, hm], List.mem_append_right _ (by simp)⟩
  | mutuallyExclusive =>
    refine ⟨cutAll b.feats σ m, by simp [Builder.removeSolution, hm], fun f hf hon => ?_⟩
    obtain ⟨d, h1, h2⟩ := hbin f hf
    unfold cutAll
    refine ⟨_, List.mem_map.mpr ⟨d, h1, rfl⟩, ?_⟩
    have hmem : d.v ∈ (offVars b.feats).filter (isOn σ) := by
      rw [h2, List.mem_filter]
      exact ⟨List.mem_map.mpr ⟨f, hf, rfl⟩, hon⟩
    rw [if_pos hmem]
    exact ⟨h2, le_rfl⟩

/-- What `np.isclose` reads is the choice behind the point. -/
theorem near_isOn (hδ : δ ≤ 1 / 10 ^ 8) (h : NearChoice δ feats κ σ) {f : Feat K} (hf : f ∈ feats) {k : ℕ}
    (hk : k < f.actions.length) : isOn σ (.u f.idx k) = true ↔ κ f.idx ≠ k := by
  have h1 := h.2 f hf k hk
  unfold isOn
  rw [← Bool.not_eq_false, isClose_zero, not_lt]
  by_cases hkk : k = κ f.idx
  · rw [if_pos hkk] at h1
    constructor
    · intro h2
      exfalso
      have h3 := abs_sub_abs_le_abs_sub (1 : K) (σ (.u f.idx k))
      rw [abs_one, abs_sub_comm] at h3
      have : (2 : K) / 10 ^ 8 < 1 := by norm_num
      have e : (2 : K) / 10 ^ 8 = 1 / 10 ^ 8 + 1 / 10 ^ 8 := by norm_num
      linarith
    · intro h2; exact absurd hkk.symm h2
  · rw [if_neg hkk, sub_zero] at h1
    exact ⟨fun _ h2 => hkk h2.symm, fun _ => h1.trans hδ⟩

/-- A point that is feasible up to the tolerances respects the cuts of the program. -/
theorem HasCut.cutBy (hok : FeatsOK n feats) (hδ0 : 0 ≤ δ) (hδ : δ ≤ 1 / 10 ^ 8) (h0 : NearChoice δ feats κ0 σ0)
    (hc : HasCut et be feats σ0 m) (hσ : m.FeasibleUpTo ε δ σ) (h : NearChoice δ feats κ σ) {N : ℕ} (hN : feats.length ≤ N)
    (ht : (N : K) * δ + ε < 1) : CutBy et be feats κ0 κ := by
  have henc := (encode_encodes hok h.1).1
  cases et with
  | mutuallyExclusive =>
    intro f hf hne
    have hlen : 0 < f.actions.length := by have := hok.two f hf; omega
    obtain ⟨d, h1, h2, h3⟩ := hc f hf ((near_isOn hδ h0 hf hlen).mpr hne)
    have h4 := (hσ.decls d h1).1
    rw [h2] at h4
    have h5 := h.2 f hf 0 hlen
    by_contra hk
    rw [if_neg (fun e => hk e.symm), sub_zero] at h5
    have h6 := le_abs_self (σ (.u f.idx 0))
    have h7 : (1 : K) ≤ N := by
      have : 1 ≤ feats.length := List.length_pos_of_mem hf
      exact_mod_cast this.trans hN
    have := mul_le_mul_of_nonneg_right h7 hδ0
    linarith
  | distinctSubsets =>
    have hint : ∀ v ∈ cutVars be feats, ∃ z : ℤ, encode feats κ v = (z : K) := by
      intro v hv
      rw [cutVars_eq] at hv
      obtain ⟨f, hf, rfl⟩ := List.mem_map.mp hv
      rw [henc.u f hf _ (hok.cutPos_lt be hf)]
      split_ifs
      · exact ⟨1, by simp⟩
      · exact ⟨0, by simp⟩
    have hsat : (comboCon (cutVars be feats) σ0).Sat (encode feats κ) := by
      refine round_sat (σ := σ) (ε := ε) (δ := δ) ⟨⟨(((cutVars be feats).filter fun v => !isOn σ0 v).length : ℤ) - 1, by
        unfold comboCon; push_cast; rfl⟩, fun r hr => by unfold comboCon at hr; cases hr⟩ ?_ ?_ (hσ.cons _ hc)
      · intro t htm
        unfold comboCon at htm
        obtain ⟨v, hv, rfl⟩ := List.mem_map.mp htm
        have hz := hint v hv
        rw [cutVars_eq] at hv
        obtain ⟨f, hf, rfl⟩ := List.mem_map.mp hv
        dsimp only
        refine ⟨?_, ?_, ?_, hz⟩
        · rw [henc.u f hf _ (hok.cutPos_lt be hf)]
          exact h.2 f hf _ (hok.cutPos_lt be hf)
        · split_ifs <;> simp
        · split_ifs
          · exact ⟨-1, by simp⟩
          · exact ⟨1, by simp⟩
      · have : ((comboCon (cutVars be feats) σ0).terms.length : K) ≤ N := by
          have e : (comboCon (cutVars be feats) σ0).terms.length = feats.length := by
            unfold comboCon; rw [cutVars_eq]; simp
          rw [e]; exact_mod_cast hN
        have := mul_le_mul_of_nonneg_right this hδ0
        linarith
    rw [comboCon_iff] at hsat
    · obtain ⟨v, hv, hne⟩ := hsat
      rw [cutVars_eq] at hv
      obtain ⟨f, hf, rfl⟩ := List.mem_map.mp hv
      refine ⟨f, hf, fun hiff => hne ?_⟩
      rw [near_isOn hδ h0 hf (hok.cutPos_lt be hf), henc.u f hf _ (hok.cutPos_lt be hf)]
      by_cases hk : κ f.idx = cutPos be f
      · rw [if_pos hk.symm]; simp [hiff.mp hk]
      · rw [if_neg (fun e => hk e.symm)]; exact ⟨fun _ => rfl, fun _ e => hk (hiff.mpr e)⟩
    · intro v hv
      rw [cutVars_eq] at hv
      obtain ⟨f, hf, rfl⟩ := List.mem_map.mp hv
      rw [henc.u f hf _ (hok.cutPos_lt be hf)]
      split_ifs <;> simp

/-- What is known of an item of an enumeration and the choice behind it. -/
structure NearItem (ext : Ext K) (b0 : Builder K) (x : List K) (feats : List (Feat K)) (N : ℕ) (R ε δ : K)
    (κ : ℕ → ℕ) (i : Info K) : Prop where
  choice : Choice feats κ
  size : 1 ≤ choiceSize feats κ
  feasible : i.feasible = true
  near : ∃ a, i.actions = some a ∧ NearRecourse ε (ε + (N : K) * δ * R) b0.aset b0.coefs b0.intercept x a
    (actVec b0.coefs.length feats κ) (max b0.minItems 1) b0.maxItems

/-- The items of an enumeration, and what happens when the number of iterations runs out. -/
theorem tolerance_loop (hso : SetOrderOk ext) (ho : o.SoundUpTo ε δ) (hε : 0 ≤ ε) (hδ0 : 0 ≤ δ) (hδ : δ ≤ 1 / 10 ^ 8)
    (hr : b0.Reachable ext) (hx : b0.setX ext x = (b1, .ok ())) {N : ℕ} {R : K} (hN : GridSizes N b0.aset)
    (hR : ChangesWithin R b0.aset x) (ht : (N : K) * δ + ε < 1) (hbi : b0.buildInfo ext x = .ok feats) (et : EnumType) :
    ∀ (fuel : ℕ) (total : Option ℕ) (b : Builder K) (acc : List (Info K)) (ks : List ((ℕ → ℕ) × (Var → K))),
      Keeps b1 b → b.backend = b0.backend →
      (∀ q ∈ ks, NearChoice δ feats q.1 q.2 ∧ ∃ m, b.mip = some m ∧ HasCut et b0.backend feats q.2 m) →
      ∃ t : List ((ℕ → ℕ) × Info K), (∀ q ∈ t, NearItem ext b0 x feats N R ε δ q.1 q.2) ∧
        (∀ r ∈ ks, ∀ q ∈ t, CutBy et b0.backend feats r.1 q.1) ∧
        (t.Pairwise fun q r => CutBy et b0.backend feats q.1 r.1) ∧
        (∀ b' l, b.popLoop o et fuel total acc = some (b', l) → l = acc ++ t.map (·.2) ∧
          ∀ k, total = some k → t.length ≤ k) ∧
        (b.popLoop o et fuel total acc = none → t.length = fuel) := by
  intro fuel
  have hok := buildInfo_ok hso hr.ok hbi
  have hb1f : b1.feats = feats := by
    obtain ⟨feats', m, -, hbi', hm, rfl⟩ := setX_ok hx
    rw [hbi] at hbi'; cases hbi'; rfl
  induction fuel with
  | zero =>
    intro total b acc ks hk hbe hks
    refine ⟨[], by simp, by simp, List.Pairwise.nil, fun b' l hl => ?_, fun _ => rfl⟩
    cases total with
    | none => simp [Builder.popLoop] at hl
    | some k => cases k with
      | zero =>
        simp only [Builder.popLoop, Option.some.injEq, Prod.mk.injEq] at hl
        rw [← hl.2]; simp
      | succ k => simp [Builder.popLoop] at hl
  | succ fuel ih =>
    intro total b acc ks hk hbe hks
    by_cases h0 : total = some 0
    · subst h0
      refine ⟨[], by simp, by simp, List.Pairwise.nil, fun b' l hl => ?_, fun hl => ?_⟩
      · simp only [Builder.popLoop, Option.some.injEq, Prod.mk.injEq] at hl
        rw [← hl.2]; simp
      · simp [Builder.popLoop] at hl
    have hpl : b.popLoop o et (fuel + 1) total acc = (match (b.solve o).reported with
        | none => some (b.solve o, acc)
        | some σ => Builder.popLoop o et fuel (total.map (· - 1)) ((b.solve o).removeSolution et σ)
            (acc ++ [(b.solve o).solutionInfo])) := by
      cases total with
      | none => rfl
      | some k => cases k with
        | zero => exact absurd rfl h0
        | succ k => rfl
    rw [hpl]
    cases hrep : (b.solve o).reported with
    | none =>
      refine ⟨[], by simp, by simp, List.Pairwise.nil, fun b' l hl => ?_, fun hl => by cases hl⟩
      simp only [Option.some.injEq, Prod.mk.injEq] at hl
      rw [← hl.2]; simp
    | some σ =>
      dsimp only
      obtain ⟨feats', κ, m0, hbi', hm0, hκ, ⟨m, hm, hc, hσ⟩, hN1, hfl, hfe, hact, hnr⟩ :=
        tolerance_core hso ho hε hδ0 hr hx hk hrep hN hR ht
      rw [hbi] at hbi'; cases hbi'
      have hs1 := SameFixed.solve o b
      have hmip : (b.solve o).mip = some m := by rw [(solve_fields o b).2.2.2.2.2.1]; exact hm
      have hfs : (b.solve o).feats = feats := hs1.feats.trans (hk.feats.trans hb1f)
      have hbs : (b.solve o).backend = b0.backend := hs1.backend.trans hbe
      have hbin : ∀ f ∈ (b.solve o).feats, ∃ d ∈ m.decls, d.v = .u f.idx 0 := by
        rw [hfs]
        intro f hf
        obtain ⟨lims, -, -, rfl⟩ := buildMip_ok hm0
        obtain ⟨d', h1, h2, -⟩ := hc.bin { v := .u f.idx 0, kind := .bin, lb := 0, ub := some 1 } (by
          simp only [List.mem_append, List.mem_flatMap]
          refine Or.inl (Or.inr ⟨f, hf, ?_⟩)
          unfold declU Feat.inds
          simp only [List.map_map, List.mem_map, List.mem_range, Function.comp]
          exact ⟨0, by have := hok.two f hf; omega, rfl⟩) rfl
        exact ⟨d', h1, h2⟩
      have hitem : NearItem ext b0 x feats N R ε δ κ (b.solve o).solutionInfo :=
        ⟨hκ.1, by
          have := hnr.min
          unfold numChanged at this
          rw [actVec_countP hok hκ.1] at this
          exact le_trans (le_max_right _ _) this, hfe, _, hact, hnr⟩
      have hnew := hasCut_remove (b := b.solve o) hmip (by rw [hfs]; exact hok) hbin et σ
      rw [hfs, hbs] at hnew
      obtain ⟨t, t1, t2, t3, t4, t5⟩ := ih (total.map (· - 1)) ((b.solve o).removeSolution et σ)
        (acc ++ [(b.solve o).solutionInfo]) ((κ, σ) :: ks) ((hk.solve o).remove et σ)
        ((SameFixed.remove et (b.solve o) σ).backend.trans hbs) (by
          intro q hq
          rcases List.mem_cons.mp hq with rfl | hq
          · exact ⟨hκ, hnew⟩
          · obtain ⟨q1, m', q2, q3⟩ := hks q hq
            rw [hm] at q2; cases q2
            exact ⟨q1, HasCut.remove ⟨m, hmip, q3⟩ et σ⟩)
      refine ⟨(κ, (b.solve o).solutionInfo) :: t, ?_, ?_, ?_, fun b' l hl => ?_, fun hl => ?_⟩
      · intro q hq
        rcases List.mem_cons.mp hq with rfl | hq
        · exact hitem
        · exact t1 q hq
      · intro r hrm q hq
        rcases List.mem_cons.mp hq with rfl | hq
        · obtain ⟨q1, m', q2, q3⟩ := hks r hrm
          rw [hm] at q2; cases q2
          exact q3.cutBy hok hδ0 hδ q1 hσ hκ hfl ht
        · exact t2 r (List.mem_cons_of_mem _ hrm) q hq
      · rw [List.pairwise_cons]
        exact ⟨fun q hq => t2 _ List.mem_cons_self q hq, t3⟩
      · obtain ⟨g1, g2⟩ := t4 b' l hl
        refine ⟨by rw [g1]; simp, fun k hk' => ?_⟩
        subst hk'
        have := g2 (k - 1) rfl
        have : k ≠ 0 := fun h => h0 (by rw [h])
        rw [List.length_cons]; omega
      · rw [List.length_cons, t5 hl]

/-- How two items of an enumeration must differ. -/
def Differ (et : EnumType) (a a' : List K) : Prop :=
  match et with
  | .distinctSubsets => ¬ SameFeatures a a'
  | .mutuallyExclusive => DisjointFeatures a a'

theorem after_backend (ha : b1.After o b) : b.backend = b1.backend := by
  induction ha with
  | refl => rfl
  | fit hr hf ih => obtain ⟨-, rfl, -⟩ := fit_ok hf; exact (SameFixed.solve o _).backend.trans ih
  | populate hr hf ih => obtain ⟨-, -, hl⟩ := populate_ok hf; exact (SameFixed.popLoop hl).backend.trans ih
  | user A hr ih => exact ih

/-- **C102, enumeration.**  With an integrality tolerance of at most 1e-8 (the tolerance of `np.isclose`), C37 and C40 survive
the tolerances of real solvers: next to the items of an enumeration there are permitted actions, none of which changes the same
features as another (`distinct_subsets`; Python-MIP or no subset limits), or any feature of another (`mutually_exclusive`). -/
theorem C102_enumeration (hso : SetOrderOk ext) (ho : o.SoundUpTo ε δ) (hε : 0 ≤ ε) (hδ0 : 0 ≤ δ) (hδ : δ ≤ 1 / 10 ^ 8)
    (hr : b0.Reachable ext) (hx : b0.setX ext x = (b1, .ok ())) (ha : b1.After o b) {fuel : ℕ}
    {total : Option ℕ} {items : List (Info K)} (hp : b.populate o et fuel total = .ok (some (b', items)))
    {N : ℕ} {R : K} (hN : GridSizes N b0.aset) (hR : ChangesWithin R b0.aset x) (ht : (N : K) * δ + ε < 1)
    (hc : et = .distinctSubsets → b0.backend = .pymip ∨ b0.aset.cons.items = []) :
    ∃ as : List (List K), List.Forall₂ (fun i a' => ∃ a, i.actions = some a ∧
        NearRecourse ε (ε + (N : K) * δ * R) b0.aset b0.coefs b0.intercept x a a' (max b0.minItems 1) b0.maxItems) items as ∧
      as.Pairwise (Differ et) := by
  obtain ⟨feats, m, -, hbi, -, hb1⟩ := setX_ok hx
  have hok := buildInfo_ok hso hr.ok hbi
  have hbe : b1.backend = b0.backend := by rw [hb1]
  obtain ⟨t, t1, -, t3, t4, -⟩ := tolerance_loop hso ho hε hδ0 hδ hr hx hN hR ht hbi et fuel total b [] []
    (Keeps.after ha) ((after_backend ha).trans hbe) (by simp)
  obtain ⟨hl, -⟩ := t4 b' items (populate_ok hp).2.2
  rw [List.nil_append] at hl
  subst hl
  refine ⟨t.map fun q => actVec b0.coefs.length feats q.1, ?_, ?_⟩
  · rw [List.forall₂_map_left_iff, List.forall₂_map_right_iff, List.forall₂_same]
    exact fun q hq => (t1 q hq).near
  · rw [List.pairwise_map]
    refine t3.imp_of_mem fun {q r} hq hr' hcut => ?_
    cases et with
    | mutuallyExclusive => exact (mutex_iff hok (t1 q hq).choice (t1 r hr').choice).mp hcut
    | distinctSubsets =>
      exact ((cutsOff_of hso hr.ok hbi ((hc rfl).imp_right Or.inl)).iff hok (t1 q hq).choice (t1 r hr').choice).mp hcut

/-- **C102, termination.**  With an integrality tolerance of at most 1e-8, C41 survives: `populate` ends. -/
theorem C102_ends (hso : SetOrderOk ext) (ho : o.SoundUpTo ε δ) (hε : 0 ≤ ε) (hδ0 : 0 ≤ δ) (hδ : δ ≤ 1 / 10 ^ 8)
    (hr : b0.Reachable ext) (hx : b0.setX ext x = (b1, .ok ())) (ha : b1.After o b) (et : EnumType) (total : Option ℕ)
    (htot : ∀ k, total = some k → 1 ≤ k)
    {N : ℕ} {R : K} (hN : GridSizes N b0.aset) (hR : ChangesWithin R b0.aset x) (ht : (N : K) * δ + ε < 1) :
    ∃ b' l, (∀ fuel, maxEnum et (numActionable b0.aset) < fuel →
        b.populate o et fuel total = .ok (some (b', l))) ∧
      l.length ≤ maxEnum et (numActionable b0.aset) ∧ ∀ k, total = some k → l.length ≤ k := by
  obtain ⟨feats, m, -, hbi, -, hb1⟩ := setX_ok hx
  have hbe : b1.backend = b0.backend := by rw [hb1]
  obtain ⟨m', hm', -⟩ := (Keeps.after ha).mip m (by rw [hb1])
  have hle := feats_length_le hso hr.ok hbi
  have hlen : ∀ t : List ((ℕ → ℕ) × Info K), (∀ q ∈ t, NearItem ext b0 x feats N R ε δ q.1 q.2) →
      (t.Pairwise fun q r => CutBy et b0.backend feats q.1 r.1) → t.length ≤ maxEnum et (numActionable b0.aset) := by
    intro t t1 t3
    rw [← List.length_map (f := fun q : (ℕ → ℕ) × Info K => q.1)]
    cases et with
    | distinctSubsets =>
      exact le_trans (cuts_distinct (List.pairwise_map.mpr t3)) (Nat.pow_le_pow_right (by norm_num) hle)
    | mutuallyExclusive =>
      refine le_trans (cuts_mutex (fun κ hκ => ?_) (List.pairwise_map.mpr t3)) hle
      obtain ⟨q, hq, rfl⟩ := List.mem_map.mp hκ
      exact (t1 q hq).size
  have hpop : ∀ fuel, b.populate o et fuel total = .ok (b.popLoop o et fuel total []) := by
    intro fuel
    unfold Builder.populate
    rw [hm']
    cases total with
    | none => rfl
    | some k =>
      have := htot k rfl
      simp only [Option.isNone_some, Bool.false_eq_true, if_false, decide_eq_true this]
      rfl
  obtain ⟨t, t1, -, t3, t4, t5⟩ := tolerance_loop hso ho hε hδ0 hδ hr hx hN hR ht hbi et
    (maxEnum et (numActionable b0.aset) + 1) total b [] []
    (Keeps.after ha) ((after_backend ha).trans hbe) (by simp)
  have hl := hlen t t1 t3
  cases hres : b.popLoop o et (maxEnum et (numActionable b0.aset) + 1) total [] with
  | none => have := t5 hres; omega
  | some r =>
    obtain ⟨b', l⟩ := r
    obtain ⟨g1, g2⟩ := t4 b' l hres
    rw [List.nil_append] at g1
    subst g1
    refine ⟨b', t.map (·.2), fun fuel hf => ?_, by rw [List.length_map]; exact hl, fun k hk => by
      rw [List.length_map]; exact g2 k hk⟩
    rw [hpop, popLoop_mono hres (by omega)]

end Recourse
