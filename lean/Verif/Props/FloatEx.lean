import Verif.Props.FloatBuild
import Verif.Props.TolEx

/-!
# C105: grids, an example, and what rounding breaks
-/

set_option linter.unusedSectionVars false

namespace Recourse

variable {K : Type} [Field K] [LinearOrder K] [IsStrictOrderedRing K] [FloorRing K]

/-! ## Builders with grids in floating point arithmetic -/

/-- The numbers of a feature are small enough for the rounding: for real-valued features the error bound of C103, for integer features the bound up to which
integers are exact. -/
def SmallNumbers (r : Rounding K) (e : Elem K) : Prop :=
  (e.vtype ≠ .int → ∃ M δ, Scaled r e.bounds.lb e.bounds.ub (computedStep r e.stepType e.bounds.lb e.bounds.ub e.stepSize) M δ) ∧
  (e.vtype = .int → ∃ N, ExactTo r N ∧ e.bounds.lb ≤ e.bounds.ub ∧
    0 < computedStep r e.stepType (⌊e.bounds.lb⌋ : K) (⌈e.bounds.ub⌉ : K) e.stepSize ∧
    |(⌊e.bounds.lb⌋ : K)| + |(⌈e.bounds.ub⌉ : K)| + (⌈computedStep r e.stepType (⌊e.bounds.lb⌋ : K) (⌈e.bounds.ub⌉ : K) e.stepSize⌉ : K) ≤ N)

theorem updateGridFl_ok {r : Rounding K} {e e' : Elem K} (hs : SmallNumbers r e) (hup : e.updateGridFl r = .ok e') : e'.GridOk := by
  unfold Elem.updateGridFl at hup
  obtain ⟨g, hg, hup⟩ := bind_ok_iff.mp hup
  cases hup
  by_cases hv : e.vtype = .int
  · obtain ⟨N, hN, hle, hst, hsm⟩ := hs.2 hv
    rw [hv, C103_integers hN hle hst hsm] at hg
    set h := computedStep r e.stepType (⌊e.bounds.lb⌋ : K) (⌈e.bounds.ub⌉ : K) e.stepSize with hh
    have hHpos : (0 : K) < (⌈h⌉ : K) := by exact_mod_cast Int.ceil_pos.mpr hst
    unfold mkGrid at hg
    have hp : gridParams .int e.bounds.lb e.bounds.ub .absolute h = ((⌊e.bounds.lb⌋ : K), (⌈e.bounds.ub⌉ : K), (⌈h⌉ : K)) := rfl
    rw [hp] at hg
    dsimp only at hg
    unfold arange at hg
    rw [if_neg hHpos.ne', ok_bind, if_pos rfl] at hg
    cases hg
    have hint : ∀ i : ℕ, trunc ((⌊e.bounds.lb⌋ : K) + (i : K) * (⌈h⌉ : K)) = (⌊e.bounds.lb⌋ : K) + (i : K) * (⌈h⌉ : K) := by
      intro i
      have := trunc_intCast (K := K) (⌊e.bounds.lb⌋ + i * ⌈h⌉)
      push_cast at this
      exact this
    have hlist : ∀ n : ℕ, ((List.range n).map fun (i : ℕ) => (⌊e.bounds.lb⌋ : K) + (i : K) * (⌈h⌉ : K)).map trunc
        = (List.range n).map fun (i : ℕ) => (⌊e.bounds.lb⌋ : K) + (i : K) * (⌈h⌉ : K) := by
      intro n
      rw [List.map_map]
      exact List.map_congr_left fun i _ => hint i
    refine ⟨?_, ?_, ?_⟩
    · dsimp only
      rw [hlist]
      have hq : (1 : ℤ) ≤ ⌈((⌈e.bounds.ub⌉ : K) + ⌈h⌉ - ⌊e.bounds.lb⌋) / ⌈h⌉⌉ := by
        rw [← Int.zero_add 1, Int.add_one_le_iff, Int.lt_ceil]
        have hab : (⌊e.bounds.lb⌋ : K) ≤ ⌈e.bounds.ub⌉ := (Int.floor_le _).trans (hle.trans (Int.le_ceil _))
        have : (0 : K) < ((⌈e.bounds.ub⌉ : K) + ⌈h⌉ - ⌊e.bounds.lb⌋) / ⌈h⌉ := div_pos (by linarith) hHpos
        exact_mod_cast this
      intro h0
      have h1 := congrArg List.length h0
      rw [List.length_map, List.length_range, List.length_nil] at h1
      omega
    · dsimp only
      rw [hlist]
      exact progression_pairwise hHpos _
    · intro _ v hv
      dsimp only at hv
      rw [hlist] at hv
      obtain ⟨i, -, rfl⟩ := List.mem_map.mp hv
      exact ⟨⌊e.bounds.lb⌋ + i * ⌈h⌉, by push_cast; ring⟩
  · obtain ⟨M, δ, hsc⟩ := hs.1 hv
    obtain ⟨g', hg', hN⟩ := C103_grid hv hsc
    rw [hg'] at hg
    cases hg
    refine ⟨?_, hN.sorted, fun h => by cases h⟩
    intro h0
    have := hN.head
    dsimp only at h0
    rw [h0] at this
    cases this

/-- **C105**, grids: a builder whose features had their grids computed in floating point arithmetic meets the hypotheses of C105, if its numbers are small. -/
theorem C105_grids {ext : Ext K} {r : Rounding K} {b : Builder K} (hr : b.Reachable ext) {es : List (Elem K)}
    (h : List.Forall₂ (fun e e' => SmallNumbers r e ∧ e.updateGridFl r = .ok e') b.aset.elems es) :
    AnyGrids { b with aset := { b.aset with elems := es } } := by
  have hb := AnyGrids.of_ok hr.ok
  refine ⟨⟨?_, hb.columns.distinct⟩, ?_, hb.names, hb.coefs, hb.cons⟩
  · show es.length = b.aset.names.length
    rw [← h.length_eq]; exact hb.columns.length
  · intro e' he'
    obtain ⟨i, hi, rfl⟩ := List.mem_iff_getElem.mp he'
    obtain ⟨h1, h2⟩ := h.get (by rw [h.length_eq]; exact hi) hi
    exact updateGridFl_ok h1 h2

/-! ## An example -/

/-- A solver that answers `σ` whenever this is feasible, and gives up otherwise. -/
noncomputable def lucky (σ : Var → ℚ) : Oracle ℚ := by
  classical
  exact fun _ m => if m.FeasibleUpTo 0 0 σ then .feasible σ else .unknown

theorem lucky_sound (σ : Var → ℚ) : (lucky σ).SoundUpTo 0 0 := by
  intro k m
  unfold lucky
  by_cases h : m.FeasibleUpTo 0 0 σ
  · simp only [if_pos h]; exact h
  · simp only [if_neg h]

/-- A builder for a point, with everything computed in doubles. -/
def exBuildFl (X : List (List ℚ)) (names : List String) (w : List ℚ) (t d : ℚ) (x : List ℚ) : Except Err (Builder ℚ) := do
  let b ← exBuilderE .cpx .total X names .ok w t
  match b.setXFl doubles exExt d x with
  | (b, .ok ()) => .ok b
  | (_, .error er) => .error er

/-- The first feature stays, the second one changes from 0 to 1. -/
def secondOn : Var → ℚ
  | .a j => if j = 1 then 1 else 0
  | .u j k => if (j = 1 ∧ k = 1) ∨ (j ≠ 1 ∧ k = 0) then 1 else 0
  | _ => 0

/-- Non-vacuity of C105: a real-valued and a binary feature, everything in doubles; the solver reports a feasible answer. -/
theorem C105_example : ∃ (b0 b1 b' : Builder ℚ) (d : ℚ) (x : List ℚ) (o : Oracle ℚ) (i : Info ℚ), AnyGrids b0 ∧ FlDot doubles b0.coefs x d ∧
    b0.setXFl doubles exExt d x = (b1, .ok ()) ∧ o.SoundUpTo 0 0 ∧ b1.fit o = .ok (b', i) ∧ i.feasible = true ∧ i.actions = some [0, 1] := by
  have key : ∃ b1 : Builder ℚ, exBuildFl [[0, 0], [1 / 2, 1], [1, 1]] ["a", "b"] [dbl (1 / 10), 2] (-1) (dbl (dbl (dbl (1 / 10) * dbl (1 / 10)) + 0))
      [dbl (1 / 10), 0] = .ok b1 ∧ b1.backend = .cpx ∧ b1.mip.any (fun m => feasB 0 0 m secondOn) = true ∧
      npPut b1.coefs.length ((b1.feats.map (·.idx)).zip (b1.feats.map fun f => secondOn (.a f.idx))) = [0, 1] := by decide +kernel
  obtain ⟨b1, h1, hbe, h2, h3⟩ := key
  unfold exBuildFl at h1
  obtain ⟨b0, hb0, h1⟩ := bind_ok_iff.mp h1
  have hr : b0.Reachable exExt := exBuilderE_reachable hb0 (fun A A' => prep_ok)
  have hcoefs : b0.coefs = [dbl (1 / 10), 2] := by
    unfold exBuilderE at hb0
    simp only [bind_ok_iff] at hb0
    obtain ⟨A, -, A', -, hb0⟩ := hb0
    exact (mkBuilder_parts hb0).2.1
  have hsx : b0.setXFl doubles exExt (dbl (dbl (dbl (1 / 10) * dbl (1 / 10)) + 0)) [dbl (1 / 10), 0] = (b1, .ok ()) := by
    rcases h : b0.setXFl doubles exExt (dbl (dbl (dbl (1 / 10) * dbl (1 / 10)) + 0)) [dbl (1 / 10), 0] with ⟨b2, er | u⟩
    · rw [h] at h1; cases h1
    · rw [h] at h1; cases h1; cases u; rfl
  cases hm : b1.mip with
  | none => rw [hm] at h2; cases h2
  | some m =>
    rw [hm] at h2
    have hfe := feasB_ok (show feasB 0 0 m secondOn = true from h2)
    have hsol : b1.solve (lucky secondOn) = { b1 with sol := .feasible secondOn, clock := b1.clock + 1 } := by
      unfold Builder.solve; rw [hm]; simp only [lucky, if_pos hfe]
    have hrep : (b1.solve (lucky secondOn)).reported = some secondOn := by
      rw [hsol]; unfold Builder.reported; dsimp only; rw [hbe]
    refine ⟨b0, b1, b1.solve (lucky secondOn), _, _, lucky secondOn, (b1.solve (lucky secondOn)).solutionInfo,
      AnyGrids.of_ok hr.ok, ?_, hsx, lucky_sound _, ?_, ?_, ?_⟩
    · rw [hcoefs]
      refine ⟨[dbl (dbl (1 / 10) * dbl (1 / 10)), 0], ?_, ?_⟩
      · refine .cons (Or.inr rfl) (.cons (Or.inl ?_) .nil)
        norm_num
      · exact .join (.one _) (.one _) (by simp) (by simp) (List.Perm.refl _)
    · unfold Builder.fit; rw [hm]
    · unfold Builder.solutionInfo; rw [hrep, hsol]; dsimp only; rw [hm]
    · unfold Builder.solutionInfo; rw [hrep, hsol]; dsimp only; rw [hm]; dsimp only; rw [h3]

/-! ## New values need not be on the grid -/

/-- **C105**, refuted in general: with exact arithmetic a feature whose action is `v - x` ends up at the grid value `v`.  In doubles it need not: on the
grid of 101 values between 0 and 1, from the value `x = 0.03`, the action to 0.29 leads to 0.29000000000000004, which is not a value of the grid. -/
theorem C105_values_refuted : ∃ (g : List ℚ) (x v : ℚ), flGrid doubles .float 0 1 .relative oneHundredth = .ok ⟨g, false⟩ ∧ x ∈ g ∧ v ∈ g ∧
    doubles.fl (x + doubles.fl (v - x)) ∉ g := by
  refine ⟨gridVals (flGrid doubles .float 0 1 .relative oneHundredth), (gridVals (flGrid doubles .float 0 1 .relative oneHundredth)).getD 3 0,
    (gridVals (flGrid doubles .float 0 1 .relative oneHundredth)).getD 29 0, ?_, ?_, ?_, ?_⟩ <;>
    decide +kernel

end Recourse
