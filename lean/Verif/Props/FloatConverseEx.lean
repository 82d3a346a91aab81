import Verif.Props.FloatConverse
import Verif.Props.FloatEx
import Verif.Props.Subset

/-!
# C105, the converse: an example in doubles
-/

set_option linter.unusedSectionVars false

namespace Recourse

/-- Evaluation of the conditions of `C105_found` on a point and an action, for costs other than local ones. -/
def clearB (r : Rounding ℚ) (b : Builder ℚ) (x a : List ℚ) (R : ℚ) : Bool :=
  regularB exExt b x && decide (b.costType ≠ .loc) && decide (0 ≤ R) && decide (a.length = x.length) && decide (numChanged a ≤ b.maxItems) &&
  ((b.aset.elems.zip x).all fun p => p.1.grid.vals.all fun v =>
    decide (v = p.2) || (decide (1 / 10 ^ 8 < (1 - r.u) * |v - p.2|) && decide (|v - p.2| ≤ R))) &&
  ((b.aset.elems.zip x).all fun p => decide (p.2 ≤ 0) || (decide (r.fl (-p.2) = -p.2) && decide (r.u * |p.2 - p.2| < |p.2|) &&
    p.1.grid.vals.all fun v => decide (v = 0) || decide (r.u * |v - p.2| < |v|))) &&
  ((b.aset.elems.zip (x.zip a)).all fun p => decide (p.2.2 = 0) || (p.1.actionable && decide (p.2.1 + p.2.2 ∈ p.1.grid.vals) && dirOkB p.1.stepDir p.2.1 (p.2.1 + p.2.2))) &&
  (b.aset.cons.items.all fun k => decide (k.lb ≤ (numNonzero b.aset x a k.names : ℕ)) && decide (((numNonzero b.aset x a k.names : ℕ) : Int) ≤ k.ub)) &&
  decide (b.aset.yDesired = 1) && decide (scoreError r b x + coefSize b.coefs * (r.u * R) ≤ dot b.coefs (vadd x a) + b.intercept)

theorem clear_of_b {r : Rounding ℚ} {b : Builder ℚ} {x a : List ℚ} {R : ℚ} (hb : BuilderOK exExt b) (h : clearB r b x a R = true) :
    RoomToRound exExt r b x ∧ LimitsApply b.aset x ∧ KnowsZero r b.aset x ∧ b.minItems ≤ 1 ∧ ChangesWithin R b.aset x ∧
    (∀ (j : ℕ) (e : Elem ℚ) (w : ℚ), b.aset.elems[j]? = some e → b.coefs[j]? = some w → w ≠ 0 → AgreesWith b.aset.yDesired w e) ∧
    b.aset.yDesired = 1 ∧
    ClearRecourse (scoreError r b x + coefSize b.coefs * (r.u * R)) b.aset b.coefs b.intercept x a b.maxItems := by
  unfold clearB at h
  simp only [Bool.and_eq_true, decide_eq_true_eq, List.all_eq_true, Bool.or_eq_true] at h
  obtain ⟨⟨⟨⟨⟨⟨⟨⟨⟨⟨hreg, hct⟩, hR⟩, hal⟩, hmx⟩, hap⟩, hz⟩, hpm⟩, hli⟩, hy⟩, hsc⟩ := h
  have hr := regular_of_b hb exExt_pos hreg
  have hzip : ∀ {j : ℕ} {e : Elem ℚ} {xj : ℚ}, b.aset.elems[j]? = some e → x[j]? = some xj → (e, xj) ∈ b.aset.elems.zip x := by
    intro j e xj he hx
    exact List.mem_of_getElem? (i := j) (List.getElem?_zip_eq_some.mpr ⟨he, hx⟩)
  refine ⟨⟨hr.fits, ?_, ?_⟩, hr.limits, ?_, hr.minItems, ⟨hR, ?_⟩, ?_, hy, ⟨⟨hal, ?_⟩, hli, hmx, ?_⟩⟩
  · intro j e xj v he hx _ hv hne
    rcases hap _ (hzip he hx) v hv with h | h
    · exact absurd h hne
    · exact h.1
  · intro j e xj u v p q he hx ha hu hv huv hp hq
    exact ⟨hr.pct j e xj u v p q he hx ha hu hv huv hp hq, fun hc => absurd hc hct⟩
  · intro j n e xj hn hl he hx hpos
    rcases hz _ (hzip he hx) with h | h
    · exact absurd hpos (not_lt.mpr h)
    · refine ⟨h.1.1, fun v hv hne => ?_⟩
      rcases hv with rfl | ⟨-, hv, -⟩
      · exact h.1.2
      · exact (h.2 v hv).resolve_left hne
  · intro j e xj v he hx hv
    rcases hv with rfl | ⟨-, hv, -⟩
    · simpa using hR
    · rcases hap _ (hzip he hx) v hv with h | h
      · rw [h]; simpa using hR
      · exact h.2
  · intro j e w he hw hne
    refine ⟨_, hr.aligned j e w he hw, ?_⟩
    rw [hy]
    unfold sgn
    rcases lt_trichotomy w 0 with h | h | h
    · simp [h, h.not_gt]
    · exact absurd h hne
    · simp [h]
  · intro j e xj aj he hx haj
    have hmem : (e, xj, aj) ∈ b.aset.elems.zip (x.zip a) :=
      List.mem_of_getElem? (i := j) (List.getElem?_zip_eq_some.mpr ⟨he, List.getElem?_zip_eq_some.mpr ⟨hx, haj⟩⟩)
    rcases hpm _ hmem with h | h
    · have h' : aj = 0 := h
      subst h'; exact Or.inl (add_zero _)
    · exact Or.inr ⟨h.1.1, h.1.2, dirOkB_iff.mp h.2⟩
  · unfold ReachesScoreUpTo
    rw [hy, if_pos (by decide), neg_neg]
    exact hsc

/-- Non-vacuity of `C105_found` and `C105_limits`: an integer and a binary feature of which at most one may be nonzero, coefficients `0.1` and `2`, all in doubles;
setting the first feature to 0 and the second to 1 is recourse with a margin. -/
theorem C105_found_example : ∃ (b0 b1 b' : Builder ℚ) (d : ℚ) (x a : List ℚ) (o : Oracle ℚ) (i : Info ℚ) (R : ℚ), AnyGrids b0 ∧ FlDot doubles b0.coefs x d ∧
    b0.setXFl doubles exExt d x = (b1, .ok ()) ∧ o.Complete ∧ b1.fit o = .ok (b', i) ∧ RoomToRound exExt doubles b0 x ∧ LimitsApply b0.aset x ∧
    KnowsZero doubles b0.aset x ∧ b0.aset.cons.items ≠ [] ∧ b0.minItems ≤ 1 ∧ ChangesWithin R b0.aset x ∧ Denied b0 x ∧
    (∀ (j : ℕ) (e : Elem ℚ) (w : ℚ), b0.aset.elems[j]? = some e → b0.coefs[j]? = some w → w ≠ 0 → AgreesWith b0.aset.yDesired w e) ∧
    ClearRecourse (scoreError doubles b0 x + coefSize b0.coefs * (doubles.u * R)) b0.aset b0.coefs b0.intercept x a b0.maxItems ∧
    i.feasible = true := by
  have key : ∃ b0 : Builder ℚ, exBuilderE .cpx .total [[0, 0], [3, 1], [6, 1]] ["a", "b"]
      (fun A => (A.addConstraint ["a", "b"] 0 1 none).map (·.1)) [dbl (1 / 10), 2] (-1) = .ok b0 ∧
      (clearB doubles b0 [6, 0] [-6, 1] 6 = true ∧ b0.aset.cons.items ≠ [] ∧ Denied b0 [6, 0] ∧
      b0.coefs = [dbl (1 / 10), 2] ∧
      (b0.setXFl doubles exExt (dbl (dbl (dbl (1 / 10) * 6) + 0)) [6, 0]).2 = .ok ()) := by decide +kernel
  obtain ⟨b0, hb0, hcl, hcons, hden, hcoefs, hsx⟩ := key
  have hr : b0.Reachable exExt := exBuilderE_reachable hb0 fun _ _ hA h => addC_ok hA h
  obtain ⟨h1, h2, h3, h4, h5, h6, hy, h7⟩ := clear_of_b hr.ok hcl
  obtain ⟨o, ho⟩ := exists_exact_oracle ℚ
  obtain ⟨b1, hx⟩ : ∃ b1, b0.setXFl doubles exExt (dbl (dbl (dbl (1 / 10) * 6) + 0)) [6, 0] = (b1, .ok ()) := ⟨_, Prod.ext rfl hsx⟩
  have hd : FlDot doubles b0.coefs [6, 0] (dbl (dbl (dbl (1 / 10) * 6) + 0)) := by
    rw [hcoefs]
    refine ⟨[dbl (dbl (1 / 10) * 6), 0], ?_, ?_⟩
    · refine .cons (Or.inr rfl) (.cons (Or.inl ?_) .nil)
      norm_num
    · exact .join (.one _) (.one _) (by simp) (by simp) (List.Perm.refl _)
  obtain ⟨feats, m, -, -, hm, hb1⟩ := setXFl_ok hx
  have hmip : b1.mip = some m := by rw [hb1]
  have hfit : b1.fit o = .ok (b1.solve o, (b1.solve o).solutionInfo) := by unfold Builder.fit; rw [hmip]
  refine ⟨b0, b1, _, _, _, [-6, 1], o, _, 6, AnyGrids.of_ok hr.ok, hd, hx, ho.2, hfit, h1, h2, h3, hcons, h4, h5, hden, h6, h7, ?_⟩
  exact C105_found exExt_order (by norm_num [doubles]) exExt_log ho.2 (AnyGrids.of_ok hr.ok) (Or.inl hy) hd hx (.refl) hfit h5 h1 h2 h3 h4 hden h6 h7

end Recourse
