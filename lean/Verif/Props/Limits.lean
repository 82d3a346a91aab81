import Verif.Props.Optimal

/-!
# Solver limits, alignment, item limits and subset limits (C29, C31, C32, C35)
-/

set_option linter.unusedSectionVars false

namespace Recourse

variable {K : Type} [Field K] [LinearOrder K] [IsStrictOrderedRing K] [FloorRing K]

variable {ext : Ext K} {o : Oracle K} {b0 b1 b b' : Builder K} {x : List K} {i : Info K}

/-! ## C29 -/

/-- **C29** (partial).  For every sound solver, also one that stops at limits: in regular situations and
for a denied point, `feasible = False` means that no recourse (respecting the subset limits) exists, or that the solver stopped without
an incumbent, or (Python-MIP) that it stopped with one.  Missing from the full property: these last two
cases, where it is false (`C29_limits_refuted`, `C29_incumbent_refuted`). -/
theorem C29_limits_partial (hso : SetOrderOk ext) (hlog : LogOk ext) (ho : o.Sound) (hr : b0.Reachable ext)
    (hreg : Regular ext b0 x) (hden : Denied b0 x) (hx : b0.setX ext x = (b1, .ok ()))
    (ha : b1.Refitted o b) (hf : b.fit o = .ok (b', i)) (hi : i.feasible = false) :
    (¬ ∃ a, IsLimitedRecourse b0.aset b0.coefs b0.intercept x a 1 b0.maxItems) ∨
    (∃ m, b.mip = some m ∧ o b.clock m = .unknown) ∨
    (b0.backend = .pymip ∧ ∃ m σ, b.mip = some m ∧ o b.clock m = .feasible σ) := by
  obtain ⟨feats, h1, h2, h3⟩ := Posed.setX hso hr.ok hx
  have hp := h3.refitted ha
  obtain ⟨m, hm, hc, hd⟩ := hp.mip
  obtain ⟨-, -, rfl⟩ := fit_ok hf
  have hsol : (b.solve o).sol = o b.clock m := by unfold Builder.solve; rw [hm]
  have hbe : (b.solve o).backend = b0.backend := (hp.solve o).backend
  have hmip : (b.solve o).mip = some m := by rw [(solve_fields o b).2.2.2.2.2.1]; exact hm
  have hrep : ∀ σ, (b.solve o).reported = some σ → False := by
    intro σ h
    unfold Builder.solutionInfo at hi
    rw [h, hmip] at hi
    cases hi
  have hs := ho b.clock m
  cases hom : o b.clock m with
  | optimal σ =>
    exfalso
    apply hrep σ
    unfold Builder.reported
    rw [hsol, hom]
  | feasible σ =>
    cases hbk : b0.backend with
    | pymip => exact Or.inr (Or.inr ⟨rfl, m, σ, hm, hom⟩)
    | cpx =>
      exfalso
      apply hrep σ
      unfold Builder.reported
      rw [hsol, hom, hbe, hbk]
  | infeasible =>
    left
    rintro ⟨a, har⟩
    obtain ⟨κ, hκ, -⟩ := exchange hso hr.ok hlog h1 hreg hden har
    rw [hom] at hs
    exact (hc.infeasible_iff h2).mp hs ⟨κ, hκ, trivial⟩
  | unknown => exact Or.inr (Or.inl ⟨m, hm, hom⟩)

/-- The full C29 is false for both back ends: a solver that stops before it finds anything makes `fit`
report `feasible = False`, although recourse exists. -/
theorem C29_limits_refuted (be : Backend) : ∃ (o : Oracle ℚ) (b0 b1 : Builder ℚ), o.Sound ∧
    b0.Reachable exExt ∧ b0.backend = be ∧ Regular exExt b0 [0, 0] ∧ Denied b0 [0, 0] ∧
    b0.setX exExt [0, 0] = (b1, .ok ()) ∧
    (∃ a, IsRecourse b0.aset b0.coefs b0.intercept [0, 0] a 1 b0.maxItems) ∧
    ∃ b' i, b1.fit o = .ok (b', i) ∧ i.feasible = false ∧ i.cost = .inf := by
  have key : ∀ be, ∃ b0 : Builder ℚ,
      exBuilderE be .total [[0, 0], [1, 1]] ["a", "b"] .ok [1, 2] (-1) = .ok b0 ∧ b0.minItems = 0 ∧
      b0.backend = be ∧
      regularB exExt b0 [0, 0] = true ∧ Denied b0 [0, 0] ∧ (b0.setX exExt [0, 0]).2 = .ok () ∧
      admitted (b0.buildArgs [0, 0] (b0.setX exExt [0, 0]).1.feats) (fun _ => true) ≠ [] := by
    intro be; cases be <;> decide +kernel
  obtain ⟨b0, h1, h2, hbe, h3, h4, h5, h6⟩ := key be
  have hr : b0.Reachable exExt := exBuilderE_reachable h1 fun A A' => prep_ok
  obtain ⟨b1, hs⟩ : ∃ b1, b0.setX exExt [0, 0] = (b1, .ok ()) := ⟨_, Prod.ext rfl h5⟩
  obtain ⟨feats, g1, -, g3⟩ := Posed.setX exExt_order hr.ok hs
  obtain ⟨m, hm, -⟩ := g3.mip
  rw [hs, show b1.feats = feats from g3.feats] at h6
  obtain ⟨κ, hκ⟩ := List.exists_mem_of_ne_nil _ h6
  have hrec := choice_isRecourse exExt_order hr.ok g1 (admitted_ok hκ).1
  rw [h2] at hrec
  refine ⟨fun _ _ => .unknown, b0, b1, fun _ _ => trivial, hr, hbe, regular_of_b hr.ok exExt_pos h3, h4, hs,
    ⟨_, hrec⟩, b1.solve (fun _ _ => .unknown), (b1.solve fun _ _ => .unknown).solutionInfo, ?_, ?_⟩
  · unfold Builder.fit; rw [hm]
  · have : (b1.solve fun _ _ => Outcome.unknown).solutionInfo = emptyInfo := by
      unfold Builder.solutionInfo Builder.reported Builder.solve
      rw [hm]
    rw [this]; exact ⟨rfl, rfl⟩

/-- With Python-MIP even a solver that has found a feasible point when it stops makes `fit` report
`feasible = False`. -/
theorem C29_incumbent_refuted : ∃ (o : Oracle ℚ) (b0 b1 : Builder ℚ), o.Sound ∧
    b0.Reachable exExt ∧ b0.backend = .pymip ∧ b0.setX exExt [0, 0] = (b1, .ok ()) ∧
    ∃ m σ, b1.mip = some m ∧ o b1.clock m = .feasible σ ∧ m.Feasible σ ∧
    ∃ b' i, b1.fit o = .ok (b', i) ∧ i.feasible = false := by
  classical
  have key : ∃ b0 : Builder ℚ,
      exBuilderE .pymip .total [[0, 0], [1, 1]] ["a", "b"] .ok [1, 2] (-1) = .ok b0 ∧
      b0.backend = .pymip ∧ (b0.setX exExt [0, 0]).2 = .ok () ∧
      admitted (b0.buildArgs [0, 0] (b0.setX exExt [0, 0]).1.feats) (fun _ => true) ≠ [] := by
    decide +kernel
  obtain ⟨b0, h1, hbe, h5, h6⟩ := key
  have hr : b0.Reachable exExt := exBuilderE_reachable h1 fun A A' => prep_ok
  obtain ⟨b1, hs⟩ : ∃ b1, b0.setX exExt [0, 0] = (b1, .ok ()) := ⟨_, Prod.ext rfl h5⟩
  obtain ⟨feats, g1, g2, g3⟩ := Posed.setX exExt_order hr.ok hs
  obtain ⟨m, hm, hc, -⟩ := g3.mip
  rw [hs, show b1.feats = feats from g3.feats] at h6
  obtain ⟨κ, hκ⟩ := List.exists_mem_of_ne_nil _ h6
  have hfe := (hc.feasible_encode g2 (admitted_ok hκ).1 trivial).1
  let o : Oracle ℚ := fun _ m => if h : ∃ σ, m.Feasible σ then .feasible h.choose else .infeasible
  have hex : ∃ σ, m.Feasible σ := ⟨_, hfe⟩
  have hom : o b1.clock m = .feasible hex.choose := dif_pos hex
  refine ⟨o, b0, b1, ?_, hr, hbe, hs, m, hex.choose, hm, hom, hex.choose_spec, b1.solve o,
    (b1.solve o).solutionInfo, by unfold Builder.fit; rw [hm], ?_⟩
  · intro k m
    by_cases h : ∃ σ, m.Feasible σ
    · have : o k m = .feasible h.choose := dif_pos h
      rw [this]; exact h.choose_spec
    · have : o k m = .infeasible := dif_neg h
      rw [this]; exact h
  · have hbe1 : b1.backend = .pymip := by rw [g3.backend]; exact hbe
    unfold Builder.solutionInfo Builder.reported Builder.solve
    rw [hm]
    dsimp only
    rw [hom, hbe1]
    rfl

/-! ## C31 -/

/-- **C31** (partial).  Building for classifier `w` from an action set that was last aligned to `w'` gives
the same builder as aligning it to `w` first, if corresponding coefficients have the same sign; an action
set that was never aligned is aligned to `w`.  In both cases the builder's action set is aligned with the
builder's own classifier.  Missing from the full property: other signs, where results are wrong
(`C31_missed_refuted`, `C31_raises_refuted`). -/
theorem C31_alignment_partial {A A1 A2 : ActionSet K} {w w' : List K} {t : K} {be : Backend} {ct : CostType}
    (hA : A.Reachable ext) (h2 : A.setAlignment w = .ok A2) :
    (A.setAlignment w' = .ok A1 → w'.map sgn = w.map sgn →
      mkBuilder be ct A1 w t = mkBuilder be ct A2 w t) ∧
    (A.alignmentKnown = false → mkBuilder be ct A w t = mkBuilder be ct A2 w t) ∧
    ∃ b, mkBuilder be ct A2 w t = .ok b ∧ b.aset = A2 ∧ b.coefs = w ∧
      ∀ (j : ℕ) (e : Elem K) (c : K), b.aset.elems[j]? = some e → b.coefs[j]? = some c →
        e.flip = some (b.aset.yDesired * sgn c) := by
  obtain ⟨hl, -⟩ := setAlignment_ok h2
  obtain ⟨A', hA', hk, hlen, hfl, hn, -, hy, -⟩ := (C12_alignment hA w).1 hl
  rw [h2] at hA'; cases hA'
  have hlen2 : decide (A2.names.length = w.length) = true := by rw [hn, hl]; simp
  refine ⟨?_, ?_, ?_⟩
  · intro h1 hs
    have : A1 = A2 := by
      obtain ⟨-, rfl⟩ := setAlignment_ok h1
      obtain ⟨-, rfl⟩ := setAlignment_ok h2
      congr 2
      have e : ∀ l : List K, (l.map fun c => if 0 < A.yDesired then sgn c else -(sgn c))
          = (l.map sgn).map fun s => if 0 < A.yDesired then s else -s := by
        intro l; rw [List.map_map]; rfl
      rw [e, e, hs]
    rw [this]
  · intro hk'
    unfold mkBuilder
    rw [hk', h2, hn, hl, if_neg (by simp), if_pos hk]
  · have hb : ∃ b, mkBuilder be ct A2 w t = .ok b ∧ b.aset = A2 ∧ b.coefs = w := by
      unfold mkBuilder
      rw [hlen2, if_pos hk]
      simp only [pyAssert_true, ok_bind]
      exact ⟨_, rfl, rfl, rfl⟩
    obtain ⟨b, hb, hba, hbc⟩ := hb
    refine ⟨b, hb, hba, hbc, ?_⟩
    intro j e c he hc
    rw [hba] at he ⊢
    rw [hbc] at hc
    have hj : j < A.elems.length := by rw [← hlen]; exact (List.getElem?_eq_some_iff.mp he).1
    have := hfl j _ c (List.getElem?_eq_getElem hj) hc
    rw [he] at this
    rw [Option.some.inj this, hy]

/-- The full C31 is false: aligned to the coefficient 0, the only feature is ignored by a builder for the
coefficient 1, so every exact solver reports that no recourse exists, although changing it to 1 is
recourse. -/
theorem C31_missed_refuted (be : Backend) : ∃ b0 b1 : Builder ℚ, b0.Reachable exExt ∧
    exBuilderE be .max [[0], [1]] ["a"] (fun A => A.setAlignment [0]) [1] (-1) = .ok b0 ∧
    b0.setX exExt [0] = (b1, .ok ()) ∧
    IsRecourse b0.aset b0.coefs b0.intercept [0] [1] 1 b0.maxItems ∧
    ∀ o : Oracle ℚ, o.Exact → ∃ b' i, b1.fit o = .ok (b', i) ∧ i.feasible = false := by
  have key : ∀ be, ∃ b0 : Builder ℚ,
      exBuilderE be .max [[0], [1]] ["a"] (fun A => A.setAlignment [0]) [1] (-1) = .ok b0 ∧
      (b0.setX exExt [0]).2 = .ok () ∧ b0.maxItems = 1 ∧ b0.aset.yDesired = 1 ∧ b0.coefs = [1] ∧
      b0.intercept = -1 ∧ b0.aset.elems.map (fun e => (e.actionable, e.stepDir, e.grid.vals)) = [(true, 0, [0, 1])] ∧
      admitted (b0.buildArgs [0] (b0.setX exExt [0]).1.feats) (fun _ => true) = [] := by
    intro be; cases be <;> decide +kernel
  obtain ⟨b0, h1, h2, h3, h4, h5, h6, h7, h8⟩ := key be
  have hr : b0.Reachable exExt := exBuilderE_reachable h1 fun A A' hA h => .align hA h
  obtain ⟨b1, hs⟩ : ∃ b1, b0.setX exExt [0] = (b1, .ok ()) := ⟨_, Prod.ext rfl h2⟩
  refine ⟨b0, b1, hr, h1, hs, ?_, fun o ho => ?_⟩
  · refine ⟨⟨rfl, ?_⟩, by decide, by rw [h3]; decide, ?_⟩
    · intro j e xj aj he hx ha
      cases j with
      | succ j => simp at hx
      | zero =>
        cases hx; cases ha
        right
        have := congrArg (·[0]?) h7
        simp only [List.getElem?_map, he, Option.map_some] at this
        have := Option.some.inj this
        simp only [Prod.mk.injEq] at this
        refine ⟨this.1, by rw [this.2.2]; simp, ?_⟩
        rw [this.2.1]; exact ⟨fun h => absurd h (by decide), fun h => absurd h (by decide)⟩
    · unfold ReachesScore
      rw [h4, h5, h6]
      simp [dot, vadd]
  · obtain ⟨b1', feats, g1, -, g2, b', i, g3, g4⟩ := exSolve exExt_order hr h2 ho
    rw [hs] at g1; cases g1
    rw [g2] at h8
    refine ⟨b', i, g3, ?_⟩
    rcases g4 with ⟨-, rfl⟩ | ⟨κ, hκ, -⟩
    · rfl
    · unfold optChoices at hκ
      rw [h8] at hκ
      simp at hκ

/-- The full C31 is false also in another way: aligned to coefficients of other signs, the assignment of
a point raises `AssertionError`. -/
theorem C31_raises_refuted (be : Backend) (ct : CostType) : ∃ b0 : Builder ℚ,
    exBuilderE be ct [[0, 0], [1, 1]] ["a", "b"] (fun A => A.setAlignment [-1, 1]) [1, 1] (-2) = .ok b0 ∧
    (b0.setX exExt [1, 0]).2 = .error .assertion ∧ Denied b0 [1, 0] ∧
    ∃ b0' : Builder ℚ, exBuilderE be ct [[0, 0], [1, 1]] ["a", "b"] .ok [1, 1] (-2) = .ok b0' ∧
    (b0'.setX exExt [1, 0]).2 = .ok () := by
  cases be <;> cases ct <;> decide +kernel

/-! ## C32 -/

theorem map_setRhs_other {l : List (LinCon K)} (h : ∀ c ∈ l, c.name = .other) {n : CName} (hn : n ≠ .other)
    (r : K) : (l.map fun c => if c.name = n then { c with rhs := r } else c) = l := by
  conv_rhs => rw [← List.map_id l]
  apply List.map_congr_left
  intro c hc
  rw [if_neg (by rw [h c hc]; exact Ne.symm hn)]; rfl

theorem pickCons_other (be : Backend) (feats : List (Feat K)) :
    ∀ c ∈ feats.flatMap (pickCons be), c.name = .other := by
  intro c hc
  obtain ⟨f, -, hc⟩ := List.mem_flatMap.mp hc
  cases be <;> simp only [pickCons, pickConsCpx, pickConsPy, List.mem_cons, List.not_mem_nil, or_false] at hc <;>
    rcases hc with rfl | rfl <;> rfl

theorem costCons_other (be : Backend) (feats : List (Feat K)) :
    ∀ c ∈ feats.flatMap (costCons be), c.name = .other := by
  intro c hc
  obtain ⟨f, -, hc⟩ := List.mem_flatMap.mp hc
  cases be <;> simp only [costCons, costConsCpx, costConsPy, List.mem_cons, List.not_mem_nil, or_false] at hc <;>
    rcases hc with rfl | rfl <;> rfl

theorem limitCons_other {be : Backend} {feats : List (Feat K)} {lims : List (List (LinCon K))}
    {cs : List SubsetLimit} (h : cs.mapM (limitCons be feats) = .ok lims) :
    ∀ c ∈ lims.flatten, c.name = .other := by
  intro c hc
  obtain ⟨l, hl, hc⟩ := List.mem_flatten.mp hc
  obtain ⟨k, -, hk⟩ := mapM_ok_mem h hl
  cases be
  · simp only [limitCons, limitConsCpx, bind_ok_iff] at hk
    obtain ⟨vs, -, hk⟩ := hk
    cases hk
    simp only [List.mem_singleton] at hc
    rw [hc]
  · simp only [limitCons, limitConsPy, bind_ok_iff] at hk
    obtain ⟨vs, -, hk⟩ := hk
    cases hk
    simp only [List.mem_cons, List.not_mem_nil, or_false] at hc
    rcases hc with rfl | rfl <;> rfl

theorem buildMip_mk {be : Backend} {p : BuildArgs K} {lims : List (List (LinCon K))}
    (hl : p.limits.mapM (limitCons be p.feats) = .ok lims) (hne : p.costType ≠ .max → p.feats ≠ []) :
    buildMip be p = .ok
        { decls := p.feats.map declA ++ p.feats.flatMap declU ++ costDecls p.costType p.feats
          cons := scoreCon p.yDesired p.score p.feats :: p.feats.flatMap (pickCons be)
            ++ sizeCons p.feats (max p.minItems 1) p.maxItems ++ lims.flatten
            ++ (if p.costType = .max then p.feats.flatMap (costCons be) else [])
          sos := p.feats.map Feat.inds
          obj := objective p.costType p.feats } := by
  have hc : ¬ (p.costType ≠ .max ∧ p.feats.isEmpty = true) := by
    rintro ⟨h1, h2⟩; exact hne h1 (by simpa using h2)
  cases be
  · change p.limits.mapM (limitConsCpx p.feats) = .ok lims at hl
    unfold buildMip buildCpx
    dsimp only
    rw [hl, ok_bind, if_neg hc]; rfl
  · change p.limits.mapM (limitConsPy p.feats) = .ok lims at hl
    unfold buildMip buildPy
    dsimp only
    rw [hl, ok_bind, if_neg hc]; rfl

/-- Changing the right-hand sides of the two size constraints gives the program of other limits. -/
theorem setRhs_min {be : Backend} {p : BuildArgs K} {m : Mip K} (h : buildMip be p = .ok m) {lo : ℕ}
    (hlo : 1 ≤ lo) : buildMip be { p with minItems := lo }
      = .ok (m.setRhs .minItems ((p.feats.length : K) - (lo : K))) := by
  obtain ⟨lims, h1, h2, rfl⟩ := buildMip_ok h
  rw [buildMip_mk (p := { p with minItems := lo }) h1 h2]
  unfold Mip.setRhs
  dsimp only
  simp only [List.map_append, List.map_cons]
  rw [map_setRhs_other (pickCons_other be p.feats) (by decide), map_setRhs_other (limitCons_other h1) (by decide)]
  have e : ((if p.costType = .max then p.feats.flatMap (costCons be) else []).map fun c : LinCon K =>
      if c.name = .minItems then { c with rhs := (p.feats.length : K) - (lo : K) } else c)
      = if p.costType = .max then p.feats.flatMap (costCons be) else [] := by
    apply map_setRhs_other _ (by decide)
    split_ifs
    · exact costCons_other be p.feats
    · simp
  rw [e, max_eq_left hlo]
  rfl

theorem setRhs_max {be : Backend} {p : BuildArgs K} {m : Mip K} (h : buildMip be p = .ok m) (hi : ℕ) :
    buildMip be { p with maxItems := hi }
      = .ok (m.setRhs .maxItems ((p.feats.length : K) - (hi : K))) := by
  obtain ⟨lims, h1, h2, rfl⟩ := buildMip_ok h
  rw [buildMip_mk (p := { p with maxItems := hi }) h1 h2]
  unfold Mip.setRhs
  dsimp only
  simp only [List.map_append, List.map_cons]
  rw [map_setRhs_other (pickCons_other be p.feats) (by decide), map_setRhs_other (limitCons_other h1) (by decide)]
  have e : ((if p.costType = .max then p.feats.flatMap (costCons be) else []).map fun c : LinCon K =>
      if c.name = .maxItems then { c with rhs := (p.feats.length : K) - (hi : K) } else c)
      = if p.costType = .max then p.feats.flatMap (costCons be) else [] := by
    apply map_setRhs_other _ (by decide)
    split_ifs
    · exact costCons_other be p.feats
    · simp
  rw [e]
  rfl

/-- A successful call with two arguments. -/
theorem setItemLimits_ok {b b' : Builder K} {lo hi : ℕ}
    (h : b.setItemLimits (some (lo : Int)) (some (hi : Int)) = (b', .ok ())) :
    lo ≤ hi ∧ b'.minItems = lo ∧ b'.aset = b.aset ∧ b'.coefs = b.coefs ∧ b'.intercept = b.intercept ∧
    b'.backend = b.backend ∧ b'.costType = b.costType ∧ b'.feats = b.feats ∧
    b'.maxItems = (if hi = b.maxItems then b.maxItems else min hi b.nActionable) ∧
    (lo ≠ b.minItems → ∃ m, b.mip = some m ∧ b'.mip = some
      (if hi = b.maxItems then m.setRhs .minItems ((b.nActionable : K) - (lo : K))
       else (m.setRhs .minItems ((b.nActionable : K) - (lo : K))).setRhs .maxItems
        ((b.nActionable : K) - (lo : K)))) ∧
    (lo = b.minItems → hi = b.maxItems ∧ b' = b) := by
  unfold Builder.setItemLimits at h
  dsimp only at h
  by_cases h1 : (hi : Int) < lo
  · rw [if_pos h1] at h; cases h
  rw [if_neg h1] at h
  by_cases h2 : (lo : Int) ≠ (b.minItems : Int)
  · rw [if_pos h2] at h
    have h2' : lo ≠ b.minItems := fun hh => h2 (by rw [hh])
    cases hm : b.mip with
    | none => rw [hm] at h; cases h
    | some m =>
      rw [hm] at h
      dsimp only at h
      rw [if_neg (by omega)] at h
      by_cases h3 : (hi : Int) ≠ (b.maxItems : Int)
      · have h3' : hi ≠ b.maxItems := fun hh => h3 (by rw [hh])
        rw [if_pos h3] at h
        cases h
        exact ⟨by omega, rfl, rfl, rfl, rfl, rfl, rfl, rfl, by rw [if_neg h3']; rfl,
          fun _ => ⟨m, rfl, by rw [if_neg h3']; simp⟩, fun h => absurd h h2'⟩
      · rw [if_neg h3] at h
        cases h
        push Not at h3
        have h3' : hi = b.maxItems := by exact_mod_cast h3
        exact ⟨by omega, rfl, rfl, rfl, rfl, rfl, rfl, rfl, by rw [if_pos h3'],
          fun _ => ⟨m, rfl, by rw [if_pos h3']; simp⟩, fun h => absurd h h2'⟩
  · rw [if_neg h2] at h
    push Not at h2
    have h2' : lo = b.minItems := by exact_mod_cast h2
    by_cases h3 : (hi : Int) ≠ (b.maxItems : Int)
    · rw [if_pos h3] at h; cases h
    · rw [if_neg h3] at h
      cases h
      push Not at h3
      have h3' : hi = b.maxItems := by exact_mod_cast h3
      exact ⟨by omega, h2'.symm, rfl, rfl, rfl, rfl, rfl, rfl, by rw [if_pos h3'],
        fun h => absurd h2' h, fun _ => ⟨h3', rfl⟩⟩

/-- The program posed after a call with a new `lo`. -/
theorem limits_posed (hso : SetOrderOk ext) (hr : b0.Reachable ext) {lo hi : ℕ} {b2 : Builder K}
    (hx : b0.setX ext x = (b1, .ok ())) (hfl : b1.feats.length = b1.nActionable) (hlo : 1 ≤ lo)
    (hne : lo ≠ b0.minItems) (h2 : b1.setItemLimits (some (lo : Int)) (some (hi : Int)) = (b2, .ok ())) :
    ∃ feats, b0.buildInfo ext x = .ok feats ∧ FeatsOK b0.coefs.length feats ∧
      Posed b0.coefs.length b0.backend
        { b0.buildArgs x feats with
          minItems := lo
          maxItems := if hi = b0.maxItems then hi else lo } (fun _ => True) b2 := by
  obtain ⟨feats, g1, g2, g3⟩ := Posed.setX hso hr.ok hx
  obtain ⟨feats', m, -, g4, hm, hb1⟩ := setX_ok hx
  rw [g1] at g4; cases g4
  obtain ⟨-, e1, e2, e3, e4, e5, e6, e7, -, e8, -⟩ := setItemLimits_ok h2
  have hmin : b1.minItems = b0.minItems := by rw [hb1]
  have hmaxi : b1.maxItems = b0.maxItems := by rw [hb1]
  obtain ⟨m', hm', hm2⟩ := e8 (by rw [hmin]; exact hne)
  have : m' = m := by rw [hb1] at hm'; exact (Option.some.inj hm').symm
  subst this
  rw [← hfl, hmaxi, show b1.feats = feats from g3.feats] at hm2
  refine ⟨feats, g1, g2, ?_⟩
  set p' : BuildArgs K :=
    { b0.buildArgs x feats with
      minItems := lo
      maxItems := if hi = b0.maxItems then hi else lo } with hp'
  have hbuild : ∃ m2, b2.mip = some m2 ∧ buildMip b0.backend p' = .ok m2 := by
    have k1 := setRhs_min (p := b0.buildArgs x feats) hm hlo
    by_cases hh : hi = b0.maxItems
    · rw [if_pos hh] at hm2
      refine ⟨_, hm2, ?_⟩
      rw [hp', if_pos hh, hh]
      exact k1
    · rw [if_neg hh] at hm2
      refine ⟨_, hm2, ?_⟩
      rw [hp', if_neg hh]
      exact setRhs_max k1 lo
  obtain ⟨m2, hm2', hb2⟩ := hbuild
  have hok' : FeatsOK b0.coefs.length p'.feats := g2
  exact ⟨⟨m2, hm2', CutOf.base hb2 hok', DeclsOK.base hb2 hok'⟩, e7.trans g3.feats, e6.trans g3.ct,
      by rw [e3]; exact g3.len, e5.trans g3.backend⟩

/-- **C32** (partial).  (1) A successful call `set_mip_item_limits(lo, hi)` takes full effect at the next
assignment of `x`: whatever is then fitted changes at least `lo` and at most `hi` features.  (2) Before
that, when `lo` is new, `lo` is at least 1 and every actionable feature is usable at the current point,
results change at least `lo` features and, if `hi` is not new, at most `hi`; if `hi` is new, exactly `lo`.
Missing from the full property: the immediate effect of a new `hi` and calls with one argument, where it is
false (`C32_limits_refuted`, `C32_ignored_refuted`). -/
theorem C32_limits_partial (hso : SetOrderOk ext) (ho : o.Sound) (hr : b0.Reachable ext) {lo hi : ℕ}
    {b2 : Builder K} :
    (b0.setItemLimits (some (lo : Int)) (some (hi : Int)) = (b1, .ok ()) → b1.setX ext x = (b2, .ok ()) →
      b2.After o b → b.fit o = .ok (b', i) → i.feasible = true →
      ∃ a, i.actions = some a ∧ IsRecourse b0.aset b0.coefs b0.intercept x a lo hi) ∧
    (b0.setX ext x = (b1, .ok ()) → b1.feats.length = b1.nActionable → 1 ≤ lo → lo ≠ b0.minItems →
      b1.setItemLimits (some (lo : Int)) (some (hi : Int)) = (b2, .ok ()) → b2.After o b → b.fit o = .ok (b', i) →
      i.feasible = true →
      ∃ a, i.actions = some a ∧
        IsRecourse b0.aset b0.coefs b0.intercept x a lo (if hi = b0.maxItems then hi else lo)) := by
  constructor
  · intro h1 h2 ha hf hi'
    obtain ⟨-, e1, e2, e3, e4, -, -, -, e5, -⟩ := setItemLimits_ok h1
    have hr1 : b1.Reachable ext := by
      have := hr.limits (some (lo : Int)) (some (hi : Int))
      rw [h1] at this; exact this
    obtain ⟨a, ha1, ha2⟩ := C22_actionable hso ho hr1 h2 ha hf hi'
    refine ⟨a, ha1, ?_⟩
    rw [e1, e2, e3, e4, e5] at ha2
    refine ⟨ha2.permitted, le_trans (le_max_left _ _) ha2.min, ha2.max.trans ?_, ha2.score⟩
    split_ifs with h
    · exact h.ge
    · exact min_le_left _ _
  · intro hx hfl hlo hne h2 ha hf hi'
    obtain ⟨feats, g1, hok', hpos⟩ := limits_posed hso hr hx hfl hlo hne h2
    obtain ⟨Q, -, hq⟩ := hpos.after hok' ho ha
    obtain ⟨-, -, rfl⟩ := fit_ok hf
    rcases hq.solved hok' ho with ⟨-, he, -⟩ | ⟨σ, κ, -, -, hk, -, hrep, -⟩
    · rw [he] at hi'; cases hi'
    · refine ⟨_, hrep.actions, ?_⟩
      let b0' : Builder K :=
        { b0 with
          minItems := lo
          maxItems := if hi = b0.maxItems then hi else lo }
      have hok0 : BuilderOK ext b0' := ⟨hr.ok.1, hr.ok.2, hr.ok.3⟩
      have hk' : ChoiceOK (b0'.buildArgs x feats) κ := hk
      have := choice_isRecourse (b := b0') hso hok0 (show b0'.buildInfo ext x = .ok feats from g1) hk'
      have h0 := this.min
      rw [show b0'.minItems = lo from rfl, max_eq_left hlo] at this
      exact this

/-- Calls with one argument missing do nothing and raise nothing; a call that only changes the upper limit
raises `UnboundLocalError`.  So the full C32 is false for every builder. -/
theorem C32_ignored_refuted (b : Builder K) :
    (∀ hi, b.setItemLimits none hi = (b, .ok ())) ∧ (∀ lo, b.setItemLimits lo none = (b, .ok ())) ∧
    ∀ hi : Int, b.minItems ≤ hi → hi ≠ b.maxItems →
      b.setItemLimits (some (b.minItems : Int)) (some hi) = (b, .error .unbound) := by
  refine ⟨fun _ => rfl, fun lo => by cases lo <;> rfl, fun hi h1 h2 => ?_⟩
  unfold Builder.setItemLimits
  dsimp only
  rw [if_neg (by omega), if_neg (by simp), if_pos h2]

/-- The full C32 is false also when both limits are new: with three binary features and limits 1 and 2, the
point needs two changes, two changes are recourse, but every exact solver reports that there is none. -/
theorem C32_limits_refuted (be : Backend) : ∃ b0 b1 b2 : Builder ℚ, b0.Reachable exExt ∧
    b0.setX exExt [0, 0, 0] = (b1, .ok ()) ∧ b1.setItemLimits (some 1) (some 2) = (b2, .ok ()) ∧
    (∃ a, IsRecourse b0.aset b0.coefs b0.intercept [0, 0, 0] a 1 2) ∧
    ∀ o : Oracle ℚ, o.Exact → ∃ b' i, b2.fit o = .ok (b', i) ∧ i.feasible = false := by
  have key : ∀ be, ∃ b0 : Builder ℚ,
      exBuilderE be .total [[0, 0, 0], [1, 1, 1]] ["a", "b", "c"] .ok [1, 1, 1] (-2) = .ok b0 ∧
      (b0.setX exExt [0, 0, 0]).2 = .ok () ∧ b0.minItems = 0 ∧ b0.maxItems = 3 ∧
      (b0.setX exExt [0, 0, 0]).1.feats.length = (b0.setX exExt [0, 0, 0]).1.nActionable ∧
      ((b0.setX exExt [0, 0, 0]).1.setItemLimits (some 1) (some 2)).2 = .ok () ∧
      admitted
        { b0.buildArgs [0, 0, 0] (b0.setX exExt [0, 0, 0]).1.feats with
          minItems := 1
          maxItems := 2 } (fun _ => true) ≠ [] ∧
      admitted
        { b0.buildArgs [0, 0, 0] (b0.setX exExt [0, 0, 0]).1.feats with
          minItems := 1
          maxItems := 1 } (fun _ => true) = [] := by
    intro be; cases be <;> decide +kernel
  obtain ⟨b0, h1, h2, h3, h4, h5, h6, h7, h8⟩ := key be
  have hr : b0.Reachable exExt := exBuilderE_reachable h1 fun A A' => prep_ok
  obtain ⟨b1, hs⟩ : ∃ b1, b0.setX exExt [0, 0, 0] = (b1, .ok ()) := ⟨_, Prod.ext rfl h2⟩
  rw [hs] at h5 h6 h7 h8
  obtain ⟨b2, hs2⟩ : ∃ b2, b1.setItemLimits (some 1) (some 2) = (b2, .ok ()) := ⟨_, Prod.ext rfl h6⟩
  obtain ⟨feats, g1, g2, g3⟩ := limits_posed exExt_order hr hs h5 le_rfl (by rw [h3]; decide) hs2
  rw [h4, if_neg (by decide)] at g3
  obtain ⟨feats', g1', -, g3'⟩ := Posed.setX exExt_order hr.ok hs
  rw [g1] at g1'; cases g1'
  have hfe : b1.feats = feats := g3'.feats
  rw [hfe] at h7 h8
  refine ⟨b0, b1, b2, hr, hs, hs2, ?_, fun o ho => ?_⟩
  · obtain ⟨κ, hκ⟩ := List.exists_mem_of_ne_nil _ h7
    let b0' : Builder ℚ :=
      { b0 with
        minItems := 1
        maxItems := 2 }
    have hok0 : BuilderOK exExt b0' := ⟨hr.ok.1, hr.ok.2, hr.ok.3⟩
    exact ⟨_, choice_isRecourse (b := b0') exExt_order hok0 (show b0'.buildInfo exExt _ = .ok feats from g1)
      (admitted_ok hκ).1⟩
  · obtain ⟨m, hm, -⟩ := g3.mip
    refine ⟨b2.solve o, (b2.solve o).solutionInfo, by unfold Builder.fit; rw [hm], ?_⟩
    have g4 : Posed b0.coefs.length b0.backend
        { b0.buildArgs [0, 0, 0] feats with
          minItems := 1
          maxItems := 1 } (fun κ => (fun _ => true : (ℕ → ℕ) → Bool) κ = true) b2 := by simpa using g3
    rcases g4.exec g2 ho with ⟨-, -, h⟩ | ⟨κ, hκ, -⟩
    · rw [h]; rfl
    · unfold optChoices at hκ
      rw [h8] at hκ
      simp at hκ

/-- Non-vacuity of `C32_limits_partial` (2): with limits 2 and 3 every exact solver finds recourse. -/
theorem C32_example (be : Backend) : ∃ b0 b1 b2 : Builder ℚ, b0.Reachable exExt ∧
    b0.setX exExt [0, 0, 0] = (b1, .ok ()) ∧ b1.feats.length = b1.nActionable ∧ 2 ≠ b0.minItems ∧
    b1.setItemLimits (some 2) (some 3) = (b2, .ok ()) ∧
    ∀ o : Oracle ℚ, o.Exact → ∃ b' i, b2.fit o = .ok (b', i) ∧ i.feasible = true := by
  have key : ∀ be, ∃ b0 : Builder ℚ,
      exBuilderE be .total [[0, 0, 0], [1, 1, 1]] ["a", "b", "c"] .ok [1, 1, 1] (-1) = .ok b0 ∧
      (b0.setX exExt [0, 0, 0]).2 = .ok () ∧ b0.minItems = 0 ∧ b0.maxItems = 3 ∧
      (b0.setX exExt [0, 0, 0]).1.feats.length = (b0.setX exExt [0, 0, 0]).1.nActionable ∧
      ((b0.setX exExt [0, 0, 0]).1.setItemLimits (some 2) (some 3)).2 = .ok () ∧
      admitted
        { b0.buildArgs [0, 0, 0] (b0.setX exExt [0, 0, 0]).1.feats with
          minItems := 2
          maxItems := 3 } (fun _ => true) ≠ [] := by
    intro be; cases be <;> decide +kernel
  obtain ⟨b0, h1, h2, h3, h4, h5, h6, h7⟩ := key be
  have hr : b0.Reachable exExt := exBuilderE_reachable h1 fun A A' => prep_ok
  obtain ⟨b1, hs⟩ : ∃ b1, b0.setX exExt [0, 0, 0] = (b1, .ok ()) := ⟨_, Prod.ext rfl h2⟩
  rw [hs] at h5 h6 h7
  obtain ⟨b2, hs2⟩ : ∃ b2, b1.setItemLimits (some 2) (some 3) = (b2, .ok ()) := ⟨_, Prod.ext rfl h6⟩
  have hne : 2 ≠ b0.minItems := by rw [h3]; decide
  obtain ⟨feats, g1, g2, g3⟩ := limits_posed exExt_order hr hs h5 (by decide) hne hs2
  rw [h4, if_pos rfl] at g3
  obtain ⟨feats', g1', -, g3'⟩ := Posed.setX exExt_order hr.ok hs
  rw [g1] at g1'; cases g1'
  rw [show b1.feats = feats from g3'.feats] at h7
  refine ⟨b0, b1, b2, hr, hs, h5, hne, hs2, fun o ho => ?_⟩
  obtain ⟨m, hm, -⟩ := g3.mip
  refine ⟨b2.solve o, (b2.solve o).solutionInfo, by unfold Builder.fit; rw [hm], ?_⟩
  have g4 : Posed b0.coefs.length b0.backend
      { b0.buildArgs [0, 0, 0] feats with
        minItems := 2
        maxItems := 3 } (fun κ => (fun _ => true : (ℕ → ℕ) → Bool) κ = true) b2 := by simpa using g3
  rcases g4.exec g2 ho with ⟨h, -⟩ | ⟨κ, -, σ, -, -, hrep, -⟩
  · exact absurd h h7
  · exact hrep.feasible

end Recourse
