import Verif.Lemmas.Compare
import Verif.Props.Optimal
import Verif.Props.Assign

/-!
# Comparing answers of two builders (C65, C66, C67)
-/

set_option linter.unusedSectionVars false

namespace Recourse

variable {K : Type} [Field K] [LinearOrder K] [IsStrictOrderedRing K] [FloorRing K]

variable {ext : Ext K} {A : ActionSet K} {w x : List K} {t t' c : K} {be be' : Backend} {ct ct' : CostType}
  {o o' : Oracle K} {b b1 b2 b3 d d1 d2 d3 : Builder K} {i i' : Info K}

/-! ## C65, C66: scaled and shifted classifiers -/

/-- Choices carry over from a classifier to a scaled one with a more favourable intercept. -/
theorem scale_choice (hc : 0 < c) (hA : A.Reachable ext) (hb : mkBuilder be ct A w t = .ok b)
    (hd : mkBuilder be' ct A (w.map (c * ·)) t' = .ok d) (ht : 0 ≤ (A.yDesired : K) * (t' - c * t))
    {feats feats' : List (Feat K)} (h : b.buildInfo ext x = .ok feats) (h' : d.buildInfo ext x = .ok feats') :
    List.Forall₂ (fun f f' => f' = { f with coef := c * f.coef }) feats feats' ∧
    ∀ κ, ChoiceOK (b.buildArgs x feats) κ → ChoiceOK (d.buildArgs x feats') κ := by
  obtain ⟨a1, a2, a3, a4, a5⟩ := mkBuilder_scale hc hb hd
  obtain ⟨hoff, ew, et, ect, -⟩ := mkBuilder_offers hA hb
  obtain ⟨-, -, et', ect', -⟩ := mkBuilder_offers hA hd
  have hy : b.aset.yDesired = A.yDesired := hoff.y
  have hy1 : A.yDesired = 1 ∨ A.yDesired = -1 := hA.wf.y
  have hf := buildInfo_scale a1 a2 a3 (by rw [ect', ect]) h h'
  refine ⟨hf, fun κ hκ => ?_⟩
  refine ChoiceOK.transfer (p := b.buildArgs x feats) (p' := d.buildArgs x feats') (scale_moves hf) a4 a5
    (by unfold Builder.buildArgs; dsimp only; rw [a1]) ?_ hκ
  have hs := hκ.score
  unfold Builder.buildArgs at hs ⊢
  dsimp only at hs ⊢
  rw [a1, hy]
  rw [hy] at hs
  rw [reaches_iff hy1] at hs ⊢
  unfold Builder.score at hs ⊢
  rw [scale_gain hf, a3, dot_scale, et']
  rw [et] at hs
  have : (A.yDesired : K) * (c * dot b.coefs x + t' + c * choiceGain feats κ) =
      c * ((A.yDesired : K) * (dot b.coefs x + t + choiceGain feats κ)) + (A.yDesired : K) * (t' - c * t) := by ring
  rw [this]
  exact add_nonneg (mul_nonneg hc.le hs) ht

/-- **C66.**  For one action set, point and cost type: if the second classifier has the coefficients of the first
times a positive factor and, after undoing the factor, an intercept at least as favourable to the desired
outcome, then a point with recourse under the first has recourse under the second, the objective is not larger,
and for total and local costs the reported cost is not larger.  Any back ends, exact solvers, refits. -/
theorem C66_threshold (hso : SetOrderOk ext) (hA : A.Reachable ext) (hc : 0 < c)
    (hb : mkBuilder be ct A w t = .ok b) (hd : mkBuilder be' ct A (w.map (c * ·)) t' = .ok d)
    (ht : 0 ≤ (A.yDesired : K) * (t' - c * t)) (ho : o.Exact) (ho' : o'.Exact)
    (hx : b.setX ext x = (b1, .ok ())) (hx' : d.setX ext x = (d1, .ok ()))
    (hr : b1.Refitted o b2) (hr' : d1.Refitted o' d2)
    (hf : b2.fit o = .ok (b3, i)) (hf' : d2.fit o' = .ok (d3, i')) (hi : i.feasible = true) :
    i'.feasible = true ∧ ∃ u u', i.upperbound = .fin u ∧ i'.upperbound = .fin u' ∧ u' ≤ u ∧
      (ct ≠ .max → i.cost = .fin u ∧ i'.cost = .fin u') := by
  have rb : b.Reachable ext := .mk hA hb
  have rd : d.Reachable ext := .mk hA hd
  obtain ⟨feats, h1, h2, h3⟩ := Posed.setX hso rb.ok hx
  obtain ⟨feats', h1', h2', h3'⟩ := Posed.setX hso rd.ok hx'
  obtain ⟨hfe, himp⟩ := scale_choice hc hA hb hd ht h1 h1'
  obtain ⟨-, -, rfl⟩ := fit_ok hf
  obtain ⟨-, -, rfl⟩ := fit_ok hf'
  obtain ⟨-, -, -, ect, -⟩ := mkBuilder_offers hA hb
  obtain ⟨-, -, -, ect', -⟩ := mkBuilder_offers hA hd
  refine ⟨posed_feasible h2 h2' (h3.refitted hr) (h3'.refitted hr') ho.1 ho' himp hi, ?_⟩
  have := posed_bound h2 h2' (h3.refitted hr) (h3'.refitted hr') ho ho' himp
    (by unfold Builder.buildArgs; dsimp only; rw [ect, ect']) (fun κ => scale_obj hfe _ κ) hi
  unfold Builder.buildArgs at this
  dsimp only at this
  rw [ect] at this
  exact this

theorem list_scale_inv {c : K} (hc : 0 < c) (w : List K) : (w.map (c * ·)).map (c⁻¹ * ·) = w := by
  rw [List.map_map]
  conv_rhs => rw [← List.map_id w]
  refine List.map_congr_left fun v _ => ?_
  simp only [Function.comp_apply, id]
  rw [← mul_assoc, inv_mul_cancel₀ hc.ne', one_mul]

/-- **C65 (partial).**  Multiplying coefficients and intercept by the same positive number does not change the
answer: if both assignments of the point are accepted, feasibility, the objective, and for total and local costs the
reported cost are the same.  Any back ends, exact solvers and refits.  Missing: the assignment may be rejected for the
scaled classifier, see `C65_scale_refuted`. -/
theorem C65_scale_partial (hso : SetOrderOk ext) (hA : A.Reachable ext) (hc : 0 < c)
    (hb : mkBuilder be ct A w t = .ok b) (hd : mkBuilder be' ct A (w.map (c * ·)) (c * t) = .ok d)
    (ho : o.Exact) (ho' : o'.Exact) (hx : b.setX ext x = (b1, .ok ())) (hx' : d.setX ext x = (d1, .ok ()))
    (hr : b1.Refitted o b2) (hr' : d1.Refitted o' d2)
    (hf : b2.fit o = .ok (b3, i)) (hf' : d2.fit o' = .ok (d3, i')) :
    i'.feasible = i.feasible ∧ i'.upperbound = i.upperbound ∧ (ct ≠ .max → i'.cost = i.cost) := by
  have hb' : mkBuilder be ct A ((w.map (c * ·)).map (c⁻¹ * ·)) t = .ok b := by rw [list_scale_inv hc]; exact hb
  have ht : 0 ≤ (A.yDesired : K) * (c * t - c * t) := by simp
  have ht' : 0 ≤ (A.yDesired : K) * (t - c⁻¹ * (c * t)) := by
    rw [← mul_assoc, inv_mul_cancel₀ hc.ne', one_mul, sub_self, mul_zero]
  have fw := C66_threshold hso hA hc hb hd ht ho ho' hx hx' hr hr' hf hf'
  have bw := C66_threshold hso hA (inv_pos.mpr hc) hd hb' ht' ho' ho hx' hx hr' hr hf' hf
  have hfe : i'.feasible = i.feasible := by
    cases h1 : i.feasible with
    | true => exact (fw h1).1
    | false =>
      cases h2 : i'.feasible with
      | false => rfl
      | true => rw [(bw h2).1] at h1; cases h1
  cases h1 : i.feasible with
  | true =>
    obtain ⟨h2, u, u', e1, e2, e3, e4⟩ := fw h1
    obtain ⟨-, v, v', g1, g2, g3, g4⟩ := bw h2
    rw [e2] at g1; rw [e1] at g2
    cases g1; cases g2
    have : u = u' := le_antisymm g3 e3
    subst this
    exact ⟨h2, by rw [e1, e2], fun hm => by rw [(e4 hm).1, (e4 hm).2]⟩
  | false =>
    rw [h1] at hfe
    have emp : ∀ {bb b4 : Builder K} {oo : Oracle K} {j : Info K} {n : ℕ} {be : Backend} {p : BuildArgs K},
        FeatsOK n p.feats → Posed n be p (fun _ => True) bb → oo.Sound → bb.fit oo = .ok (b4, j) →
        j.feasible = false → j = emptyInfo := by
      intro bb b4 oo j n be p q1 q2 q3 q4 q5
      obtain ⟨-, -, rfl⟩ := fit_ok q4
      rcases q2.solved q1 q3 with ⟨-, he, -⟩ | ⟨σ, κ, -, -, -, -, hrep, -⟩
      · exact he
      · rw [hrep.feasible] at q5; cases q5
    obtain ⟨feats, h1', h2', h3'⟩ := Posed.setX hso (Builder.Reachable.mk hA hb).ok hx
    obtain ⟨feats', g1', g2', g3'⟩ := Posed.setX hso (Builder.Reachable.mk hA hd).ok hx'
    rw [emp h2' (h3'.refitted hr) ho.1 hf h1, emp g2' (g3'.refitted hr') ho'.1 hf' hfe]
    exact ⟨rfl, rfl, fun _ => rfl⟩

/-- The full property C65 fails: with coefficients multiplied by `1e-9` the same point is rejected with
`AssertionError`, because coefficients up to `1e-8` count as zero. -/
theorem C65_scale_refuted (be : Backend) (ct : CostType) : ∃ (A : ActionSet ℚ) (b d : Builder ℚ), A.Reachable exExt ∧
    mkBuilder be ct A [1] (-1) = .ok b ∧ mkBuilder be ct A [1 / 10 ^ 9] (-1 / 10 ^ 9) = .ok d ∧
    (b.setX exExt [0]).2 = .ok () ∧ (d.setX exExt [0]).2 = .error .assertion := by
  have key : ∀ be ct, ∃ A : ActionSet ℚ, mkActionSet [[0], [1]] ["a"] 1 [] defaultBounds (.str "relative") = .ok A ∧
      (∃ b : Builder ℚ, mkBuilder be ct A [1] (-1) = .ok b ∧ (b.setX exExt [0]).2 = .ok ()) ∧
      ∃ d : Builder ℚ, mkBuilder be ct A [1 / 10 ^ 9] (-1 / 10 ^ 9) = .ok d ∧
        (d.setX exExt [0]).2 = .error .assertion := by
    intro be ct; cases be <;> cases ct <;> decide +kernel
  obtain ⟨A, h1, ⟨b, h2, h3⟩, d, h4, h5⟩ := key be ct
  exact ⟨A, b, d, .mk h1, h2, h4, h3, h5⟩

/-- Non-vacuity of C65 and C66: classifiers `a + 2 b - 1`, `2 a + 4 b - 2` and `2 a + 4 b - 1`, with recourse. -/
theorem C65_example (be : Backend) (ct : CostType) (t : ℚ) (ht : t = -1 ∨ t = -2) :
    ∃ (A : ActionSet ℚ) (b d b1 d1 : Builder ℚ), A.Reachable exExt ∧
    A.yDesired = 1 ∧ mkBuilder be ct A [1, 2] (-1) = .ok b ∧ mkBuilder be ct A ([1, 2].map (2 * ·)) t = .ok d ∧
    b.setX exExt [0, 0] = (b1, .ok ()) ∧ d.setX exExt [0, 0] = (d1, .ok ()) ∧
    ∀ o : Oracle ℚ, o.Exact → ∃ b' i d' i', b1.fit o = .ok (b', i) ∧ d1.fit o = .ok (d', i') ∧ i.feasible = true ∧
      i'.feasible = true := by
  have key : ∀ be ct, ∀ t ∈ [(-1 : ℚ), -2], ∃ A : ActionSet ℚ,
      mkActionSet [[0, 0], [1, 1]] ["a", "b"] 1 [] defaultBounds (.str "relative") = .ok A ∧ A.yDesired = 1 ∧
      (∃ b : Builder ℚ, mkBuilder be ct A [1, 2] (-1) = .ok b ∧ (b.setX exExt [0, 0]).2 = .ok () ∧
        admitted (b.buildArgs [0, 0] (b.setX exExt [0, 0]).1.feats) (fun _ => true) ≠ []) ∧
      ∃ d : Builder ℚ, mkBuilder be ct A ([1, 2].map (2 * ·)) t = .ok d ∧
        (d.setX exExt [0, 0]).2 = .ok () ∧
        admitted (d.buildArgs [0, 0] (d.setX exExt [0, 0]).1.feats) (fun _ => true) ≠ [] := by
    intro be ct; cases be <;> cases ct <;> decide +kernel
  obtain ⟨A, h1, hy, ⟨b, h2, h3, h4⟩, d, h5, h6, h7⟩ := key be ct t (by simpa using ht)
  have hA : A.Reachable exExt := .mk h1
  have rb : b.Reachable exExt := .mk hA h2
  have rd : d.Reachable exExt := .mk hA h5
  refine ⟨A, b, d, _, _, hA, hy, h2, h5, Prod.ext rfl h3, Prod.ext rfl h6, fun o ho => ?_⟩
  obtain ⟨b1, feats, g1, -, g2, b', i, g3, g4⟩ := exSolve exExt_order rb h3 ho
  obtain ⟨d1, feats', k1, -, k2, d', i', k3, k4⟩ := exSolve exExt_order rd h6 ho
  rw [g1, k1]
  refine ⟨b', i, d', i', g3, k3, ?_, ?_⟩
  · rcases g4 with ⟨h, -⟩ | ⟨κ, -, -, hf, -⟩
    · rw [g2] at h4; exact absurd h h4
    · exact hf
  · rcases k4 with ⟨h, -⟩ | ⟨κ, -, -, hf, -⟩
    · rw [k2] at h7; exact absurd h h7
    · exact hf

/-- How `build_mip` ends does not depend on the back end or the score. -/
theorem buildMip_status' {be be' : Backend} {p p' : BuildArgs K} (hl : p'.limits = p.limits)
    (hf : p'.feats = p.feats) (hct : p'.costType = p.costType) :
    (buildMip be' p').map (fun _ => ()) = (buildMip be p).map (fun _ => ()) := by
  have h1 : ∀ (be : Backend) (p : BuildArgs K), (buildMip be p).map (fun _ => ()) = (buildMip .cpx p).map (fun _ => ()) := by
    intro be p
    cases be with
    | cpx => rfl
    | pymip => exact (buildMip_status p).symm
  rw [h1 be' p', h1 be p]
  unfold buildMip buildCpx
  dsimp only
  rw [hl, hf, hct]
  cases p.limits.mapM (limitConsCpx p.feats) with
  | error e => rfl
  | ok l =>
    simp only [ok_bind]
    by_cases hc : p.costType ≠ .max ∧ p.feats.isEmpty
    · rw [if_pos hc, if_pos hc]
    · rw [if_neg hc, if_neg hc]; rfl

/-- How the assignment of a point ends is decided by the features and the limits. -/
theorem setX_status (b : Builder K) (x : List K) : (b.setX ext x).2 =
    if x.length ≠ b.coefs.length then .error .assertion else
      (b.buildInfo ext x) >>= fun feats => (buildMip b.backend (b.buildArgs x feats)).map fun _ => () := by
  unfold Builder.setX
  by_cases h : x.length ≠ b.coefs.length
  · rw [if_pos h, if_pos h]
  · rw [if_neg h, if_neg h]
    dsimp only
    have e1 : ({ b with x := some x } : Builder K).buildInfo ext x = b.buildInfo ext x := rfl
    rw [e1]
    cases b.buildInfo ext x with
    | error e => rfl
    | ok feats =>
      simp only [ok_bind]
      have e2 : ({ b with x := some x, aset := b.aset.touch ext true } : Builder K).buildArgs x feats
        = b.buildArgs x feats := rfl
      rw [e2]
      cases buildMip b.backend (b.buildArgs x feats) with
      | error e => rfl
      | ok m => rfl

/-- **C66**, acceptance: which points a builder accepts, and the exceptions for others, do not depend on the
intercept (nor on the back end). -/
theorem C66_accepts (hb : mkBuilder be ct A w t = .ok b) (hd : mkBuilder be' ct A w t' = .ok d) :
    (d.setX ext x).2 = (b.setX ext x).2 := by
  obtain ⟨h1, h2, -, h4, h5, -⟩ := mkBuilder_parts hb
  obtain ⟨g1, g2, -, g4, g5, -⟩ := mkBuilder_parts hd
  have ha : d.aset = b.aset := by rw [h1] at g1; exact (Except.ok.inj g1).symm
  have hi : d.buildInfo ext x = b.buildInfo ext x := by
    unfold Builder.buildInfo
    have : mkFeat ext d x = mkFeat ext b x := by
      funext cn g
      unfold mkFeat
      rw [g4, h4, g5, h5, ha, g2, h2]
    rw [this, ha]
  rw [setX_status, setX_status, g2, h2, hi]
  split_ifs
  · rfl
  · cases b.buildInfo ext x with
    | error e => rfl
    | ok feats =>
      simp only [ok_bind]
      refine buildMip_status' ?_ rfl ?_
      · unfold Builder.buildArgs; dsimp only; rw [ha]
      · unfold Builder.buildArgs; dsimp only; rw [g4, h4]

/-! ## C67: the cost type does not decide whether there is recourse -/

theorem dropBugs_same {F F' : K → K} : ∀ {l : List (K × K)} {r r' : List (K × K)},
    (∀ q ∈ l, (F q.2 ≤ 0 ↔ F' q.2 ≤ 0)) → dropBugs (l.map fun q => (q.1, F q.2)) = some r →
    dropBugs (l.map fun q => (q.1, F' q.2)) = some r' → r'.map (·.1) = r.map (·.1)
  | [], r, r', _, h, _ => by simp [dropBugs] at h
  | q :: l, r, r', hq, h, h' => by
    have hb : ∀ q' ∈ q :: l, isBug q'.1 (F q'.2) = isBug q'.1 (F' q'.2) := by
      intro q' hq'
      unfold isBug
      rw [decide_eq_decide.mpr (hq q' hq')]
    simp only [List.map_cons] at h h'
    unfold dropBugs at h h'
    rw [← hb q (List.mem_cons_self ..)] at h'
    cases hb0 : isBug q.1 (F q.2) with
    | true =>
      rw [if_pos hb0] at h h'
      cases h; cases h'
      simp only [List.map_cons, List.filter_map, List.map_map, List.cons.injEq, true_and]
      have : (l.filter ((fun q => !isBug q.1 q.2) ∘ fun q : K × K => (q.1, F' q.2))) =
          l.filter ((fun q => !isBug q.1 q.2) ∘ fun q : K × K => (q.1, F q.2)) := by
        refine List.filter_congr fun q' hq' => ?_
        simp only [Function.comp_apply, hb q' (List.mem_cons_of_mem _ hq')]
      rw [this]
      rfl
    | false =>
      rw [if_neg (by rw [hb0]; decide)] at h h'
      cases h1 : dropBugs (l.map fun q => (q.1, F q.2)) with
      | none => rw [h1] at h; cases h
      | some s =>
        cases h2 : dropBugs (l.map fun q => (q.1, F' q.2)) with
        | none => rw [h2] at h'; cases h'
        | some s' =>
          rw [h1] at h; rw [h2] at h'
          cases h; cases h'
          have := dropBugs_same (fun q' hq' => hq q' (List.mem_cons_of_mem _ hq')) h1 h2
          simp only [List.map_cons, this]

theorem zip_map_snd {α β γ : Type} (F : β → γ) (a : List α) (p : List β) :
    a.zip (p.map F) = (a.zip p).map fun q => (q.1, F q.2) := by
  rw [List.zip_map_right]; rfl

/-- Which actions are dropped does not depend on the cost type. -/
theorem orient_same (hlog : LogOk ext) {a p : List K} (hp : ∀ v ∈ p, v < 1) {r r' : List (K × K)}
    (h : dropBugs ((orient ext ct a p).1.zip (orient ext ct a p).2) = some r)
    (h' : dropBugs ((orient ext ct' a p).1.zip (orient ext ct' a p).2) = some r') :
    r'.map (·.1) = r.map (·.1) := by
  have h01 : (0 : K) < 1 := one_pos
  have sign : ∀ (ct : CostType) (l : List K), (∀ v ∈ l, v < 1) → ∀ v ∈ l,
      ((if ct = .loc then ext.log ((1 - l.headD 0) / (1 - v)) else v - l.headD 0) ≤ 0 ↔ v ≤ l.headD 0) ∧
      ((if ct = .loc then ext.log ((1 - v) / (1 - l.headD 0)) else l.headD 0 - v) ≤ 0 ↔ l.headD 0 ≤ v) := by
    intro ct l hl v hv
    have hh : l.headD 0 < 1 := by
      cases l with
      | nil => exact h01
      | cons u l => exact hl u (List.mem_cons_self ..)
    have hv1 : 0 < 1 - v := by have := hl v hv; linarith
    have hh1 : 0 < 1 - l.headD 0 := by linarith
    by_cases hc : ct = .loc
    · simp only [if_pos hc]
      constructor
      · rw [← not_lt, hlog _ (div_pos hh1 hv1), one_lt_div hv1, not_lt]
        constructor <;> intro <;> linarith
      · rw [← not_lt, hlog _ (div_pos hv1 hh1), one_lt_div hh1, not_lt]
        constructor <;> intro <;> linarith
    · simp only [if_neg hc]
      constructor
      · rw [sub_nonpos]
      · rw [sub_nonpos]
  unfold orient at h h'
  by_cases hcl : isClose (a.getLastD 0) 0 = true
  · simp only [hcl, if_true] at h h'
    have e : ∀ ct, costDn ext ct p.reverse = p.reverse.map fun v =>
        if ct = .loc then ext.log ((1 - v) / (1 - p.reverse.headD 0)) else p.reverse.headD 0 - v := by
      intro ct; unfold costDn; dsimp only
      by_cases hc : ct = .loc
      · simp only [if_pos hc]
      · simp only [if_neg hc]
    rw [e, zip_map_snd] at h h'
    refine dropBugs_same (F := fun v => if ct = .loc then ext.log ((1 - v) / (1 - p.reverse.headD 0)) else p.reverse.headD 0 - v)
      (F' := fun v => if ct' = .loc then ext.log ((1 - v) / (1 - p.reverse.headD 0)) else p.reverse.headD 0 - v)
      (fun q hq => ?_) h h'
    have hm := (List.of_mem_zip (a := q.1) (b := q.2) hq).2
    have hl : ∀ v ∈ p.reverse, v < 1 := fun v hv => hp v (List.mem_reverse.mp hv)
    rw [(sign ct _ hl _ hm).2, (sign ct' _ hl _ hm).2]
  · simp only [hcl, Bool.false_eq_true, if_false] at h h'
    have e : ∀ ct, costUp ext ct p = p.map fun v =>
        if ct = .loc then ext.log ((1 - p.headD 0) / (1 - v)) else v - p.headD 0 := by
      intro ct; unfold costUp; dsimp only
      by_cases hc : ct = .loc
      · simp only [if_pos hc]
      · simp only [if_neg hc]
    rw [e, zip_map_snd] at h h'
    refine dropBugs_same (F := fun v => if ct = .loc then ext.log ((1 - p.headD 0) / (1 - v)) else v - p.headD 0)
      (F' := fun v => if ct' = .loc then ext.log ((1 - p.headD 0) / (1 - v)) else v - p.headD 0)
      (fun q hq => ?_) h h'
    have hm := (List.of_mem_zip (a := q.1) (b := q.2) hq).2
    rw [(sign ct _ hp _ hm).1, (sign ct' _ hp _ hm).1]

/-- The moves of the features do not depend on the cost type. -/
theorem buildInfo_cost (hso : SetOrderOk ext) (hlog : LogOk ext) (hA : b.aset.Reachable ext) (ha : d.aset = b.aset)
    (hv : d.varNames = b.varNames) (hw : d.coefs = b.coefs)
    (hp : ∀ e ∈ b.aset.elems, ∀ v p, e.percentile ext v = .ok p → p < 1)
    {feats feats' : List (Feat K)} (h : b.buildInfo ext x = .ok feats) (h' : d.buildInfo ext x = .ok feats') :
    List.Forall₂ (fun f f' => SameMoves f f' ∧ f'.coef = f.coef) feats feats' := by
  unfold Builder.buildInfo at h h'
  simp only [bind_ok_iff, pyAssert_ok_iff] at h h'
  obtain ⟨grid, hg, fs, hfs, _, -, h⟩ := h
  obtain ⟨grid', hg', fs', hfs', _, -, h'⟩ := h'
  cases h; cases h'
  rw [ha, hg] at hg'
  cases hg'
  rw [ha] at hfs'
  obtain ⟨-, g2, g3⟩ := C20_feasible_grid hso hA hg
  have hxl : x.length = b.aset.names.length := by
    unfold ActionSet.feasibleGrid at hg
    simp only [bind_ok_iff, pyAssert_ok_iff, decide_eq_true_eq] at hg
    obtain ⟨_, hx, -⟩ := hg
    exact hx
  have hlen : b.aset.names.length = b.aset.elems.length := by rw [← hA.wf.names, List.length_map]
  have hpc : ∀ g ∈ grid, ∀ v ∈ g.pcts, v < 1 := by
    intro g hgm v hvm
    obtain ⟨j, hj, hjn⟩ := List.getElem_of_mem (g2 g hgm)
    have hnj := List.getElem?_eq_getElem hj
    rw [hjn] at hnj
    have hej := List.getElem?_eq_getElem (l := b.aset.elems) (i := j) (by omega)
    have hxj := List.getElem?_eq_getElem (l := x) (i := j) (by omega)
    obtain ⟨-, k2⟩ := (g3 j _ _ _ hnj hej hxj).2 g hgm rfl
    unfold Elem.feasiblePercentiles at k2
    obtain ⟨t, ht, k2⟩ := bind_ok_iff.mp k2
    rw [← Except.ok.inj k2] at hvm
    obtain ⟨u, -, rfl⟩ := List.mem_map.mp hvm
    exact hp _ (List.getElem_mem _) u _ (by unfold Elem.percentile; rw [ht]; rfl)
  refine forall₂_mapM hfs hfs' ?_
  intro g hgm f f' hf hf'
  obtain ⟨ac, xj, a1, a2, a3, a4, a5, a6, a7, a8⟩ := mkFeat_ok hf
  obtain ⟨ac', xj', d1, d2, d3, d4, d5, d6, d7, d8⟩ := mkFeat_ok hf'
  rw [hv] at d2 d3 d6
  rw [a3] at d3
  cases d3
  have hac : ac'.map (·.1) = ac.map (·.1) :=
    orient_same hlog (hpc g (List.mem_of_mem_filter hgm)) a1 d1
  rw [hac, a4] at d4
  rw [hw, a2] at d2
  exact ⟨⟨by rw [d6, a6], by rw [d7, a7, hac], (Except.ok.inj d4).symm⟩, (Option.some.inj d2).symm⟩

theorem cost_choice (hso : SetOrderOk ext) (hlog : LogOk ext) (hA : A.Reachable ext)
    (hb : mkBuilder be ct A w t = .ok b) (hd : mkBuilder be' ct' A w t = .ok d)
    (hp : ∀ e ∈ b.aset.elems, ∀ v p, e.percentile ext v = .ok p → p < 1)
    {feats feats' : List (Feat K)} (h : b.buildInfo ext x = .ok feats) (h' : d.buildInfo ext x = .ok feats') :
    (∀ κ, actVec b.coefs.length feats κ = actVec d.coefs.length feats' κ) ∧
    ∀ κ, ChoiceOK (b.buildArgs x feats) κ → ChoiceOK (d.buildArgs x feats') κ := by
  obtain ⟨h1, h2, h3, -, h5, h6, h7⟩ := mkBuilder_parts hb
  obtain ⟨g1, g2, g3, -, g5, g6, g7⟩ := mkBuilder_parts hd
  have ha : d.aset = b.aset := by rw [h1] at g1; exact (Except.ok.inj g1).symm
  have hv : d.varNames = b.varNames := by rw [g5, h5, ha]
  have hw : d.coefs = b.coefs := by rw [g2, h2]
  have hf := buildInfo_cost hso hlog (Builder.Reachable.mk hA hb).ok.aset ha hv hw hp h h'
  constructor
  · intro κ
    unfold actVec
    rw [hw]
    congr 1
    clear h h'
    induction hf with
    | nil => rfl
    | cons h _ ih =>
      rw [List.map_cons, List.map_cons, ih]
      unfold Feat.act
      rw [h.1.idx, h.1.actions]
  · intro κ hκ
    refine ChoiceOK.transfer (p := b.buildArgs x feats) (p' := d.buildArgs x feats') (hf.imp fun _ _ h => h.1)
      (by unfold Builder.buildArgs; dsimp only; rw [g6, h6]) (by unfold Builder.buildArgs; dsimp only; rw [g7, h7, ha])
      (by unfold Builder.buildArgs; dsimp only; rw [ha]) ?_ hκ
    have hs := hκ.score
    have hgain : choiceGain feats' κ = choiceGain feats κ := by
      clear h h' hκ hs
      unfold choiceGain
      induction hf with
      | nil => rfl
      | cons h _ ih =>
        rw [List.map_cons, List.map_cons, List.sum_cons, List.sum_cons, ih]
        unfold Feat.act
        rw [h.1.idx, h.1.actions, h.2]
    unfold Builder.buildArgs at hs ⊢
    dsimp only at hs ⊢
    unfold Builder.score at hs ⊢
    rw [hgain, ha, hw, g3]
    rw [h3] at hs
    exact hs

/-- **C67.**  For one action set, classifier and point, whether recourse is reported does not depend on the cost type
(nor on the back end): all combinations that accept the point agree, with exact solvers and after any refits.
Percentile scores below 1 are needed for local costs (see C08). -/
theorem C67_cost_type (hso : SetOrderOk ext) (hlog : LogOk ext) (hA : A.Reachable ext)
    (hp : ∀ e ∈ A.elems, ∀ v p, e.percentile ext v = .ok p → p < 1)
    (hb : mkBuilder be ct A w t = .ok b) (hd : mkBuilder be' ct' A w t = .ok d) (ho : o.Exact) (ho' : o'.Exact)
    (hx : b.setX ext x = (b1, .ok ())) (hx' : d.setX ext x = (d1, .ok ()))
    (hr : b1.Refitted o b2) (hr' : d1.Refitted o' d2)
    (hf : b2.fit o = .ok (b3, i)) (hf' : d2.fit o' = .ok (d3, i')) : i'.feasible = i.feasible := by
  have hoff := (mkBuilder_offers hA hb).1
  have hoff' := (mkBuilder_offers hA hd).1
  have hpb : ∀ (A' : ActionSet K), SameOffers ext A A' → ∀ e ∈ A'.elems, ∀ v p, e.percentile ext v = .ok p → p < 1 := by
    intro A' hA' e he v p hvp
    obtain ⟨j, hj⟩ := List.getElem?_of_mem he
    obtain ⟨e0, h0, hs⟩ := hA'.getElem?' hj
    refine hp e0 (List.mem_of_getElem? h0) v p ?_
    unfold Elem.percentile at hvp ⊢
    rw [← hs.table]
    exact hvp
  obtain ⟨feats, h1, h2, h3⟩ := Posed.setX hso (Builder.Reachable.mk hA hb).ok hx
  obtain ⟨feats', h1', h2', h3'⟩ := Posed.setX hso (Builder.Reachable.mk hA hd).ok hx'
  obtain ⟨-, -, rfl⟩ := fit_ok hf
  obtain ⟨-, -, rfl⟩ := fit_ok hf'
  have fw := posed_feasible h2 h2' (h3.refitted hr) (h3'.refitted hr') ho.1 ho'
    (cost_choice hso hlog hA hb hd (hpb _ hoff) h1 h1').2
  have bw := posed_feasible h2' h2 (h3'.refitted hr') (h3.refitted hr) ho'.1 ho
    (cost_choice hso hlog hA hd hb (hpb _ hoff') h1' h1).2
  cases h4 : (b2.solve o).solutionInfo.feasible with
  | true => exact fw h4
  | false =>
    cases h5 : (d2.solve o').solutionInfo.feasible with
    | false => rfl
    | true => rw [bw h5] at h4; cases h4

/-- Percentile scores computed from the current grid are below 1. -/
theorem percentile_below (hA : A.Reachable ext) (hpos : ∀ vals pdf, ext.kde vals = .ok pdf → ∀ v, 0 < pdf v)
    {e : Elem K} (he : e ∈ A.elems) (hfr : e.table ext = e.freshTable ext) (v p : K)
    (hp : e.percentile ext v = .ok p) : p < 1 := by
  unfold Elem.percentile at hp
  obtain ⟨t, ht, hp⟩ := bind_ok_iff.mp hp
  cases hp
  rw [hfr] at ht
  exact ((freshTable_good (hA.wf.elems e he).inv.2 (hpos _) ht).1.eval_range v).2

/-- Non-vacuity of C67: one action set and all pairs of cost types and back ends; with intercept `-1` there is
recourse, with `-4` there is none. -/
theorem C67_example (be be' : Backend) (ct ct' : CostType) (t : ℚ) (ht : t = -1 ∨ t = -4) :
    ∃ (A : ActionSet ℚ) (b d b1 d1 : Builder ℚ), A.Reachable exExt ∧
    (∀ e ∈ A.elems, ∀ v p, e.percentile exExt v = .ok p → p < 1) ∧
    mkBuilder be ct A [1, 2] t = .ok b ∧ mkBuilder be' ct' A [1, 2] t = .ok d ∧
    b.setX exExt [0, 0] = (b1, .ok ()) ∧ d.setX exExt [0, 0] = (d1, .ok ()) ∧
    ∀ o : Oracle ℚ, o.Exact → ∃ b' i d' i', b1.fit o = .ok (b', i) ∧ d1.fit o = .ok (d', i') ∧
      i.feasible = decide (t = -1) ∧ i'.feasible = decide (t = -1) := by
  have key : ∃ A : ActionSet ℚ,
      mkActionSet [[0, 0], [1, 1]] ["a", "b"] 1 [] defaultBounds (.str "relative") = .ok A ∧
      (∀ e ∈ A.elems, e.table exExt = e.freshTable exExt) ∧
      ∀ t ∈ [(-1 : ℚ), -4], ∀ be ∈ [Backend.cpx, .pymip], ∀ ct ∈ [CostType.total, .loc, .max],
        ∃ b : Builder ℚ, mkBuilder be ct A [1, 2] t = .ok b ∧ (b.setX exExt [0, 0]).2 = .ok () ∧
        (admitted (b.buildArgs [0, 0] (b.setX exExt [0, 0]).1.feats) (fun _ => true) = [] ↔ t ≠ -1) := by
    decide +kernel
  obtain ⟨A, h1, h2, h3⟩ := key
  have hA : A.Reachable exExt := .mk h1
  obtain ⟨b, b2, b3, b4⟩ := h3 t (by simpa using ht) be (by cases be <;> simp) ct (by cases ct <;> simp)
  obtain ⟨d, d2, d3, d4⟩ := h3 t (by simpa using ht) be' (by cases be' <;> simp) ct' (by cases ct' <;> simp)
  have rb : b.Reachable exExt := .mk hA b2
  have rd : d.Reachable exExt := .mk hA d2
  refine ⟨A, b, d, _, _, hA, fun e he => percentile_below hA exExt_pos he (h2 e he), b2, d2,
    Prod.ext rfl b3, Prod.ext rfl d3, fun o ho => ?_⟩
  have answer : ∀ {b : Builder ℚ}, b.Reachable exExt → (b.setX exExt [0, 0]).2 = .ok () →
      (admitted (b.buildArgs [0, 0] (b.setX exExt [0, 0]).1.feats) (fun _ => true) = [] ↔ t ≠ -1) →
      ∃ b' i, (b.setX exExt [0, 0]).1.fit o = .ok (b', i) ∧ i.feasible = decide (t = -1) := by
    intro b rb h3 h4
    obtain ⟨b1, feats, g1, -, g2, b', i, g3, g4⟩ := exSolve exExt_order rb h3 ho
    rw [g1]
    refine ⟨b', i, g3, ?_⟩
    rw [g2] at h4
    rcases g4 with ⟨h, rfl⟩ | ⟨κ, hκ, -, hf, -⟩
    · rw [decide_eq_false (h4.mp h)]; rfl
    · rw [hf, eq_comm, decide_eq_true_eq]
      by_contra hne
      have h5 := h4.mpr hne
      unfold optChoices at hκ
      rw [h5] at hκ
      simp at hκ
  obtain ⟨b', i, p1, p2⟩ := answer rb b3 b4
  obtain ⟨d', i', q1, q2⟩ := answer rd d3 d4
  exact ⟨b', i, d', i', p1, q1, p2, q2⟩

end Recourse
