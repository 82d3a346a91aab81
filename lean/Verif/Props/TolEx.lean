import Verif.Props.Tolerance
import Verif.Props.Compare

/-!
# Solvers with tolerances: what goes wrong (C102)
-/

set_option linter.unusedSectionVars false

namespace Recourse

/-- A solver that answers `σ` whenever this is optimal up to the tolerances, and gives up otherwise. -/
noncomputable def noisy (ε δ : ℚ) (σ : Var → ℚ) : Oracle ℚ := by
  classical
  exact fun _ m => if m.OptimalUpTo ε δ σ then .optimal σ else .unknown

theorem noisy_sound (ε δ : ℚ) (σ : Var → ℚ) : (noisy ε δ σ).SoundUpTo ε δ := by
  intro k m
  unfold noisy
  by_cases h : m.OptimalUpTo ε δ σ
  · simp only [if_pos h]; exact h
  · simp only [if_neg h]

theorem noisy_eq {ε δ : ℚ} {σ : Var → ℚ} {m : Mip ℚ} (h : m.OptimalUpTo ε δ σ) (k : ℕ) :
    noisy ε δ σ k m = .optimal σ := by
  unfold noisy; simp only [if_pos h]

/-- Evaluation of `LinCon.SatUpTo`. -/
def satB (ε : ℚ) (c : LinCon ℚ) (σ : Var → ℚ) : Bool :=
  match c.sense with
  | .le => decide (evalLin σ c.terms ≤ c.rhs + ε)
  | .ge => decide (c.rhs - ε ≤ evalLin σ c.terms)
  | .eq => decide (|evalLin σ c.terms - c.rhs| ≤ ε)
  | .range r => decide (c.rhs - ε ≤ evalLin σ c.terms ∧ evalLin σ c.terms ≤ c.rhs + r + ε)

theorem satB_iff (ε : ℚ) (c : LinCon ℚ) (σ : Var → ℚ) : satB ε c σ = true ↔ c.SatUpTo ε σ := by
  unfold satB LinCon.SatUpTo
  cases c.sense <;> simp

/-- Evaluation of `VarDecl.SatUpTo`. -/
def declB (ε δ : ℚ) (d : VarDecl ℚ) (σ : Var → ℚ) : Bool :=
  decide (d.lb - ε ≤ σ d.v) && d.ub.all (fun u => decide (σ d.v ≤ u + ε)) &&
    (decide (d.kind ≠ .bin) || decide (|σ d.v| ≤ δ) || decide (|σ d.v - 1| ≤ δ))

theorem declB_ok {ε δ : ℚ} {d : VarDecl ℚ} {σ : Var → ℚ} (h : declB ε δ d σ = true) : d.SatUpTo ε δ σ := by
  unfold declB at h
  simp only [Bool.and_eq_true, Bool.or_eq_true, decide_eq_true_eq] at h
  obtain ⟨⟨h1, h2⟩, h3⟩ := h
  refine ⟨h1, fun u hu => ?_, fun hb => ?_⟩
  · rw [Option.mem_def] at hu
    rw [hu] at h2
    simpa using h2
  · rcases h3 with (h | h) | h
    · exact absurd hb h
    · exact Or.inl h
    · exact Or.inr h

/-- Evaluation of `Mip.FeasibleUpTo`. -/
def feasB (ε δ : ℚ) (m : Mip ℚ) (σ : Var → ℚ) : Bool :=
  m.decls.all (fun d => declB ε δ d σ) && m.cons.all (fun c => satB ε c σ) &&
    m.sos.all fun s => s.all fun v => s.all fun v' => decide (|σ v| ≤ δ) || decide (|σ v'| ≤ δ) || decide (v = v')

theorem feasB_ok {ε δ : ℚ} {m : Mip ℚ} {σ : Var → ℚ} (h : feasB ε δ m σ = true) : m.FeasibleUpTo ε δ σ := by
  unfold feasB at h
  simp only [Bool.and_eq_true, List.all_eq_true, Bool.or_eq_true, decide_eq_true_eq] at h
  obtain ⟨⟨h1, h2⟩, h3⟩ := h
  refine ⟨fun d hd => declB_ok (h1 d hd), fun c hc => (satB_iff ε c σ).mp (h2 c hc), fun s hs v hv v' hv' h4 h5 => ?_⟩
  rcases h3 s hs v hv v' hv' with (h | h) | h
  · exact absurd h (not_le.mpr h4)
  · exact absurd h (not_le.mpr h5)
  · exact h

/-- Evaluation of `Mip.OptimalUpTo` for the program of a builder. -/
def optB (ε δ : ℚ) (b1 : Builder ℚ) (x : List ℚ) (σ : Var → ℚ) : Bool :=
  b1.mip.any fun m => feasB ε δ m σ && (admitted (b1.buildArgs x b1.feats) (fun _ => true)).all fun κ =>
    decide (m.objVal σ ≤ choiceObj b1.costType b1.feats κ + ε)

theorem optB_ok {ε δ : ℚ} {b1 : Builder ℚ} {x : List ℚ} {σ : Var → ℚ} {be : Backend}
    (hok : FeatsOK b1.coefs.length b1.feats)
    (hp : Posed b1.coefs.length be (b1.buildArgs x b1.feats) (fun _ => True) b1) (h : optB ε δ b1 x σ = true) :
    ∃ m, b1.mip = some m ∧ m.OptimalUpTo ε δ σ := by
  unfold optB at h
  obtain ⟨m, hm, hc, -⟩ := hp.mip
  rw [hm] at h
  simp only [Option.any_some, Bool.and_eq_true, List.all_eq_true, decide_eq_true_eq] at h
  refine ⟨m, hm, feasB_ok h.1, fun τ hτ => ?_⟩
  obtain ⟨κ, he, hκ, -, hcv⟩ := (hc.feas τ).mp hτ
  obtain ⟨κ', h1, h2⟩ := mem_choicesOf hok.nodup hκ.lt
  have hmem : κ' ∈ admitted (b1.buildArgs x b1.feats) (fun _ => true) := by
    unfold admitted
    simp only [List.mem_filter, Bool.and_eq_true, choiceOKb_iff]
    exact ⟨h1, h2.ok hκ, trivial⟩
  have h3 := h.2 κ' hmem
  have h4 := hc.le_obj hok he hcv
  have h5 := Agree.obj h2 b1.costType
  change choiceObj b1.costType b1.feats κ = choiceObj b1.costType b1.feats κ' at h5
  change choiceObj b1.costType b1.feats κ ≤ m.objVal τ at h4
  linarith

/-- What a fit with the noisy solver reports. -/
def infoOf (b1 : Builder ℚ) (σ : Var → ℚ) : Info ℚ := ({ b1 with sol := .optimal σ } : Builder ℚ).solutionInfo

theorem noisy_solve {ε δ : ℚ} {b : Builder ℚ} {σ : Var → ℚ} {m : Mip ℚ} (hm : b.mip = some m)
    (h : m.OptimalUpTo ε δ σ) : (b.solve (noisy ε δ σ)).reported = some σ ∧
      (b.solve (noisy ε δ σ)).solutionInfo = infoOf b σ ∧ (b.solve (noisy ε δ σ)).mip = some m := by
  have e : b.solve (noisy ε δ σ) = { b with sol := .optimal σ, clock := b.clock + 1 } := by
    unfold Builder.solve; rw [hm]; simp only [noisy_eq h]
  rw [e]
  refine ⟨?_, rfl, hm⟩
  unfold Builder.reported
  cases b.backend <;> rfl

/-- `solution_info` depends on the program only through its objective. -/
theorem infoOf_congr {b b' : Builder ℚ} {σ : Var → ℚ} {m m' : Mip ℚ} (hm : b.mip = some m) (hm' : b'.mip = some m')
    (ho : m'.obj = m.obj) (hf : b'.feats = b.feats) (hc : b'.coefs = b.coefs) (ht : b'.costType = b.costType) :
    infoOf b' σ = infoOf b σ := by
  have hr : ∀ b : Builder ℚ, ({ b with sol := .optimal σ } : Builder ℚ).reported = some σ := by
    intro b; unfold Builder.reported; cases b.backend <;> rfl
  unfold infoOf Builder.solutionInfo
  rw [hr, hr]
  simp only [hm, hm', hf, hc, ht, Mip.objVal, ho]

/-- **Repeated answers.**  Suppose a point is optimal up to the tolerances and none of its "off" indicators is within
numpy's tolerance of 0 (`np.isclose`: 1e-8).  Then no item is ever removed from the program: with a solver that keeps answering
this point, `populate` returns it as often as it is asked to, and never ends if it is asked for all items. -/
theorem noisy_repeat {ε δ : ℚ} {σ : Var → ℚ} (et : EnumType) : ∀ (fuel : ℕ) (b : Builder ℚ) (m : Mip ℚ) (acc : List (Info ℚ)),
    b.mip = some m → m.OptimalUpTo ε δ σ → (∀ v ∈ offVars b.feats, isOn σ v = false) →
    ((comboCon (cutVars b.backend b.feats) σ).SatUpTo ε σ) →
    (∀ n ≤ fuel, ∃ b', b.popLoop (noisy ε δ σ) et fuel (some n) acc = some (b', acc ++ List.replicate n (infoOf b σ))) ∧
    b.popLoop (noisy ε δ σ) et fuel none acc = none := by
  intro fuel
  induction fuel with
  | zero =>
    intro b m acc hm ho hoff hc
    refine ⟨fun n hn => ?_, rfl⟩
    have : n = 0 := by omega
    subst this
    exact ⟨b, by simp [Builder.popLoop]⟩
  | succ fuel ih =>
    intro b m acc hm ho hoff hc
    obtain ⟨h1, h2, h3⟩ := noisy_solve hm ho
    set b2 := (b.solve (noisy ε δ σ)).removeSolution et σ with hb2
    have hs := (SameFixed.solve (noisy ε δ σ) b).trans (SameFixed.remove et (b.solve (noisy ε δ σ)) σ)
    have hcut : ∃ m2, b2.mip = some m2 ∧ m2.OptimalUpTo ε δ σ ∧ m2.obj = m.obj := by
      cases et with
      | mutuallyExclusive =>
        refine ⟨m, ?_, ho, rfl⟩
        rw [hb2]
        simp only [Builder.removeSolution, h3, Option.map_some, Option.some.injEq]
        unfold cutAll
        have hfil : (offVars (b.solve (noisy ε δ σ)).feats).filter (isOn σ) = [] := by
          rw [List.filter_eq_nil_iff]
          intro v hv
          rw [(SameFixed.solve (noisy ε δ σ) b).feats] at hv
          rw [hoff v hv]; simp
        rw [hfil]
        simp
      | distinctSubsets =>
        refine ⟨cutCombo b.backend b.feats σ m, ?_, ⟨⟨ho.1.decls, ?_, ho.1.sos⟩, ?_⟩, rfl⟩
        · rw [hb2]
          simp only [Builder.removeSolution, h3, Option.map_some, (SameFixed.solve (noisy ε δ σ) b).feats,
            (SameFixed.solve (noisy ε δ σ) b).backend]
        · intro c hcm
          unfold cutCombo at hcm
          dsimp only at hcm
          rcases List.mem_append.mp hcm with h | h
          · exact ho.1.cons c h
          · rw [List.mem_singleton.mp h]; exact hc
        · intro τ hτ
          exact ho.2 τ ⟨hτ.decls, fun c hcm => hτ.cons c (List.mem_append_left _ hcm), hτ.sos⟩
    obtain ⟨m2, hm2, ho2, hob⟩ := hcut
    have hinfo : infoOf b2 σ = infoOf b σ := infoOf_congr hm hm2 hob hs.feats hs.coefs hs.costType
    obtain ⟨g1, g2⟩ := ih b2 m2 (acc ++ [infoOf b σ]) hm2 ho2 (by rw [hs.feats]; exact hoff)
      (by rw [hs.feats, hs.backend]; exact hc)
    constructor
    · intro n hn
      cases n with
      | zero => exact ⟨b, by simp [Builder.popLoop]⟩
      | succ n =>
        obtain ⟨b', hb'⟩ := g1 n (by omega)
        refine ⟨b', ?_⟩
        simp only [Builder.popLoop, Option.map_some, Nat.add_sub_cancel]
        rw [h1, h2]
        dsimp only
        rw [hb', hinfo, List.replicate_succ]
        simp
    · unfold Builder.popLoop
      dsimp only
      rw [h1, h2]
      exact g2

/-- One binary feature, slightly off. -/
def oneNoise (b1 : Builder ℚ) : Var → ℚ
  | .a _ => 1
  | .u _ k => if k = 0 then 1 / 10 ^ 7 else 1 - 1 / 10 ^ 7
  | .c _ => (b1.feats.headD ⟨"", 0, 0, [], [], 0⟩).costs.getD 1 0
  | .maxCost => (b1.feats.headD ⟨"", 0, 0, [], [], 0⟩).costs.getD 1 0

/-- **C102, enumeration** (refuted).  The guarantees of C37 and C38 (no repeated combination, no feature in two items) and of C41 (the
enumeration ends) do not survive tolerances: there is one binary feature to change, and a solver with tolerances of 1e-6 reports
its "off" indicator as 1e-7.  Since `np.isclose(1e-7, 0)` is false, the item is not removed: `populate` returns the same item
as often as it is asked to, and does not end when asked for all items. -/
theorem C102_repeat_refuted (be : Backend) (ct : CostType) : ∃ (b0 b1 : Builder ℚ) (o : Oracle ℚ),
    b0.Reachable exExt ∧ b0.setX exExt [0] = (b1, .ok ()) ∧ b1.backend = be ∧ b1.costType = ct ∧
    o.SoundUpTo (1 / 10 ^ 6) (1 / 10 ^ 6) ∧ ∀ et : EnumType,
      (∀ n, 1 ≤ n → ∃ b' items, b1.populate o et n (some n) = .ok (some (b', items)) ∧ items.length = n ∧
        ∀ i ∈ items, i.actions = some [1]) ∧
      ∀ fuel, b1.populate o et fuel none = .ok none := by
  have key : ∀ be ct, ∃ b1 : Builder ℚ, exBuild be ct [[0], [1]] ["a"] .ok [1] (-1 / 2) [0] = .ok b1 ∧
      b1.backend = be ∧ b1.costType = ct ∧ optB (1 / 10 ^ 6) (1 / 10 ^ 6) b1 [0] (oneNoise b1) = true ∧
      (offVars b1.feats).all (fun v => !isOn (oneNoise b1) v) = true ∧
      satB (1 / 10 ^ 6) (comboCon (cutVars b1.backend b1.feats) (oneNoise b1)) (oneNoise b1) = true ∧
      (infoOf b1 (oneNoise b1)).actions = some [1] := by
    intro be ct; cases be <;> cases ct <;> decide +kernel
  obtain ⟨b1, h, hbe, hct, h1, h2, h3, h4⟩ := key be ct
  obtain ⟨b0, g1, g2, g3, g4⟩ := exBuild_ok h (fun A A' => prep_ok)
  obtain ⟨m, hm, ho⟩ := optB_ok g3 g4 h1
  refine ⟨b0, b1, noisy (1 / 10 ^ 6) (1 / 10 ^ 6) (oneNoise b1), g1, g2, hbe, hct, noisy_sound _ _ _, fun et => ?_⟩
  have hoff : ∀ v ∈ offVars b1.feats, isOn (oneNoise b1) v = false := by
    intro v hv
    rw [List.all_eq_true] at h2
    simpa using h2 v hv
  constructor
  · intro n hn
    obtain ⟨b', hb'⟩ := (noisy_repeat et n b1 m [] hm ho hoff ((satB_iff _ _ _).mp h3)).1 n le_rfl
    refine ⟨b', List.replicate n (infoOf b1 (oneNoise b1)), ?_, by simp, fun i hi => ?_⟩
    · unfold Builder.populate
      rw [hm]
      simp only [Option.isNone_some, Bool.false_eq_true, if_false, hn, decide_true]
      rw [hb', List.nil_append]; rfl
    · rw [List.eq_of_mem_replicate hi]; exact h4
  · intro fuel
    have := (noisy_repeat et fuel b1 m [] hm ho hoff ((satB_iff _ _ _).mp h3)).2
    unfold Builder.populate
    rw [hm]
    simp only [Option.isNone_some, Bool.false_eq_true, if_false]
    rw [this]; rfl

/-! ## Noise in the answers -/

/-- The calls `A = ActionSet(X, names)`, `b = RecourseBuilder(A, w, t)`, `b.max_items = 1`, `b.x = x`. -/
def exTol (be : Backend) (ct : CostType) : Except Err (Builder ℚ × Builder ℚ) := do
  let A ← mkActionSet [[0, 0], [1, 1], [2, 0]] ["a", "b"] 1 [] defaultBounds (.str "relative")
  let b ← mkBuilder be ct A [1 / 10, 2] (-3 / 2)
  match (b.setMaxItems (some 1)).1.setX exExt [0, 0] with
  | (b1, .ok ()) => .ok ((b.setMaxItems (some 1)).1, b1)
  | (_, .error er) => .error er

theorem exTol_ok {be : Backend} {ct : CostType} {b0 b1 : Builder ℚ} (h : exTol be ct = .ok (b0, b1)) :
    b0.Reachable exExt ∧ b0.setX exExt [0, 0] = (b1, .ok ()) ∧ FeatsOK b1.coefs.length b1.feats ∧
      Posed b1.coefs.length b1.backend (b1.buildArgs [0, 0] b1.feats) (fun _ => True) b1 := by
  unfold exTol at h
  simp only [bind_ok_iff] at h
  obtain ⟨A, hA, b, hb, h⟩ := h
  have hr0 : (b.setMaxItems (some 1)).1.Reachable exExt := .maxItems _ (.mk (.mk hA) hb)
  rcases hsx : (b.setMaxItems (some 1)).1.setX exExt [0, 0] with ⟨b2, r⟩
  rw [hsx] at h
  cases r with
  | error e => cases h
  | ok u =>
    cases h
    obtain ⟨feats, h1, h2, h3⟩ := Posed.setX exExt_order hr0.ok hsx
    refine ⟨hr0, hsx, ?_⟩
    obtain ⟨feats', m, -, h4, h5, rfl⟩ := setX_ok hsx
    rw [h1] at h4; cases h4
    exact ⟨h2, h3⟩

/-- The second feature is changed; one indicator of the first feature is 1e-9 instead of 0. -/
def tinyNoise (b1 : Builder ℚ) : Var → ℚ
  | .a j => if j = 0 then 1 / 10 ^ 9 else 1
  | .u j k => if j = 0 then (if k = 0 then 1 else if k = 1 then 1 / 10 ^ 9 else 0) else (if k = 1 then 1 else 0)
  | .c j => if j = 0 then 0 else ((b1.feats.getD 1 ⟨"", 0, 0, [], [], 0⟩).costs.getD 1 0)
  | .maxCost => (b1.feats.getD 1 ⟨"", 0, 0, [], [], 0⟩).costs.getD 1 0

/-- Evaluation of `ChangesWithin`. -/
theorem changes_within {R : ℚ} {A : ActionSet ℚ} {x : List ℚ} (hR : 0 ≤ R)
    (h : ∀ p ∈ A.elems.zip x, ∀ v ∈ p.1.grid.vals, |v - p.2| ≤ R) : ChangesWithin R A x := by
  refine ⟨hR, fun j e xj v he hx hp => ?_⟩
  have hm : (e, xj) ∈ A.elems.zip x := by
    rw [List.mem_iff_getElem?]
    exact ⟨j, by rw [List.getElem?_zip_eq_some]; exact ⟨he, hx⟩⟩
  rcases hp with rfl | ⟨-, hv, -⟩
  · rw [sub_self, abs_zero]; exact hR
  · exact h _ hm v hv

/-- The cost of moving feature `p.1` from `p.2` to `v`, if it can be computed. -/
def moveCostOf (ct : CostType) (p : Elem ℚ × ℚ) (v : ℚ) : Option ℚ :=
  match p.1.percentile exExt p.2, p.1.percentile exExt v with
  | .ok a, .ok b => some (if ct = .loc then exExt.log ((1 - min a b) / (1 - max a b)) else |b - a|)
  | _, _ => none

/-- Evaluation of `CostsWithin`. -/
theorem costs_within {C : ℚ} {ct : CostType} {A : ActionSet ℚ} {x : List ℚ} (hC : 0 ≤ C)
    (h : ∀ p ∈ A.elems.zip x, ∀ v ∈ p.2 :: p.1.grid.vals, ∀ c ∈ moveCostOf ct p v, c ≤ C) :
    CostsWithin C exExt ct A x := by
  refine ⟨hC, fun j e xj v c he hx hp hc => ?_⟩
  have hm : (e, xj) ∈ A.elems.zip x := by
    rw [List.mem_iff_getElem?]
    exact ⟨j, by rw [List.getElem?_zip_eq_some]; exact ⟨he, hx⟩⟩
  have hv : v ∈ xj :: e.grid.vals := by
    rcases hp with rfl | ⟨-, hv, -⟩
    · exact List.mem_cons_self
    · exact List.mem_cons_of_mem _ hv
  obtain ⟨p, q, h1, h2, h3⟩ := hc
  refine h _ hm v hv c ?_
  unfold moveCostOf
  dsimp only
  rw [h1, h2, h3]
  rfl

/-- The choice of the second move of the second feature. -/
def secondMove (j : ℕ) : ℕ := if j = 1 then 1 else 0

/-- **C102, noise** (what tolerances do to the answers themselves; also the non-vacuity of C102).  Two features may change, at most
one of them at a time.  A solver with tolerances of 1e-6 (integrality: 1e-8) reports one indicator of the first feature as 1e-9
instead of 0.  All hypotheses of C102 hold, and the answer is close to recourse, as it promises; but
- the answer itself changes two features where `max_items` is 1 (the items are counted by `a != 0`), and
- for the cost types with a sum, the vector of costs shows for the second feature the cost of a move of the *first* one: the costs
  are looked up by the position of the non-zero indicators (builder.py:845-853, 1133-1143). -/
theorem C102_noise_refuted (be : Backend) (ct : CostType) : ∃ (b0 b1 b' : Builder ℚ) (i : Info ℚ) (o : Oracle ℚ),
    b0.Reachable exExt ∧ b0.setX exExt [0, 0] = (b1, .ok ()) ∧ b0.backend = be ∧ b0.costType = ct ∧
    o.SoundUpTo (1 / 10 ^ 6) (1 / 10 ^ 8) ∧
    GridSizes 4 b0.aset ∧ ChangesWithin 2 b0.aset [0, 0] ∧ CostsWithin 2000000 exExt ct b0.aset [0, 0] ∧
    (∀ e ∈ b0.aset.elems, ∀ v p, e.percentile exExt v = .ok p → p < 1) ∧
    b1.fit o = .ok (b', i) ∧ i.feasible = true ∧ i.actions = some [1 / 10 ^ 9, 1] ∧ b0.maxItems = 1 ∧
    (∀ et fuel, ∃ b'', b1.populate o et (fuel + 1) (some 1) = .ok (some (b'', [i]))) ∧
    (ct ≠ .max → ∃ k c, i.costs = some [0, k] ∧ ActionCosts exExt ct b0.aset [0, 0] [0, 1] [0, c] ∧
      1 / 10 < |k - c|) := by
  have key : ∀ be ct, ∃ p : Builder ℚ × Builder ℚ, exTol be ct = .ok p ∧
      p.1.backend = be ∧ p.1.costType = ct ∧ optB (1 / 10 ^ 6) (1 / 10 ^ 8) p.2 [0, 0] (tinyNoise p.2) = true ∧
      (p.1.aset.names.length ≤ 4 ∧ ∀ e ∈ p.1.aset.elems, e.grid.vals.length < 4) ∧
      (∀ q ∈ p.1.aset.elems.zip [0, 0], ∀ v ∈ q.1.grid.vals, |v - q.2| ≤ 2) ∧
      (∀ q ∈ p.1.aset.elems.zip [0, 0], ∀ v ∈ q.2 :: q.1.grid.vals, ∀ c ∈ moveCostOf ct q v, c ≤ 2000000) ∧
      (∀ e ∈ p.1.aset.elems, e.table exExt = e.freshTable exExt) ∧
      (infoOf p.2 (tinyNoise p.2)).feasible = true ∧
      (infoOf p.2 (tinyNoise p.2)).actions = some [1 / 10 ^ 9, 1] ∧ p.1.maxItems = 1 ∧
      (∀ f ∈ p.2.feats, secondMove f.idx < f.actions.length) ∧
      actVec p.1.coefs.length p.2.feats secondMove = [0, 1] ∧
      (ct ≠ .max → (infoOf p.2 (tinyNoise p.2)).costs = some [0, ((infoOf p.2 (tinyNoise p.2)).costs.getD []).getD 1 0] ∧
        cstVec p.1.coefs.length p.2.feats secondMove = [0, (cstVec p.1.coefs.length p.2.feats secondMove).getD 1 0] ∧
        1 / 10 < |((infoOf p.2 (tinyNoise p.2)).costs.getD []).getD 1 0 -
          (cstVec p.1.coefs.length p.2.feats secondMove).getD 1 0|) := by
    intro be ct; cases be <;> cases ct <;> decide +kernel
  obtain ⟨⟨b0, b1⟩, h, hbe, hct, h1, h2, h3, h4, h5, h6, h7, h8, h9, h10, h11⟩ := key be ct
  obtain ⟨g1, g2, g3, g4⟩ := exTol_ok h
  obtain ⟨m, hm, ho⟩ := optB_ok g3 g4 h1
  obtain ⟨s1, s2, s3⟩ := noisy_solve (b := b1) hm ho
  have hp : ∀ e ∈ b0.aset.elems, ∀ v p, e.percentile exExt v = .ok p → p < 1 :=
    fun e he => percentile_below g1.ok.aset exExt_pos he (h5 e he)
  refine ⟨b0, b1, b1.solve (noisy (1 / 10 ^ 6) (1 / 10 ^ 8) (tinyNoise b1)),
    (b1.solve (noisy (1 / 10 ^ 6) (1 / 10 ^ 8) (tinyNoise b1))).solutionInfo,
    noisy (1 / 10 ^ 6) (1 / 10 ^ 8) (tinyNoise b1), g1, g2, hbe, hct, noisy_sound _ _ _, h2,
    changes_within (by norm_num) h3, costs_within (by norm_num) h4, hp, ?_, by rw [s2]; exact h6, by rw [s2]; exact h7, h8, ?_, ?_⟩
  · unfold Builder.fit; rw [hm]
  · intro et fuel
    unfold Builder.populate
    rw [hm]
    simp only [Option.isNone_some, Bool.false_eq_true, if_false, le_refl, decide_true, Builder.popLoop, Option.map_some]
    rw [s1]
    cases fuel <;> exact ⟨_, rfl⟩
  · intro hne
    obtain ⟨k1, k2, k3⟩ := h11 hne
    refine ⟨_, _, by rw [s2]; exact k1, ?_, k3⟩
    obtain ⟨feats, m', -, hbi, -, hb1⟩ := setX_ok g2
    have hfe : b1.feats = feats := by rw [hb1]
    have := choice_actionCosts exExt_order g1.ok hbi exExt_log (fun _ => hp) (κ := secondMove) (by
      intro f hf; rw [← hfe] at hf; exact h9 f hf)
    rw [hct, ← hfe, h10] at this
    rw [← k2]
    exact this

end Recourse
