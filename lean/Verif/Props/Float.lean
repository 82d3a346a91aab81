import Mathlib.Data.Rat.Floor
import Verif.Model.Float
import Verif.Props.Values

/-!
# C103: grids in floating point arithmetic
-/

set_option linter.unusedSectionVars false

namespace Recourse

variable {K : Type} [Field K] [LinearOrder K] [IsStrictOrderedRing K] [FloorRing K]

/-! ## No rounding -/

theorem flEntry_exact (a h : K) (i : ℕ) : flEntry .exact a h i = a + (i : K) * h := by
  unfold flEntry Rounding.exact
  by_cases h0 : i = 0
  · subst h0; simp
  · rw [if_neg h0]
    by_cases h1 : i = 1
    · subst h1; simp
    · rw [if_neg h1]; simp

/-- **C103**, link to the other properties: without rounding the grid is the one all other properties speak about. -/
theorem C103_exact (vt : VType) (lb ub : K) (st : StepType) (s : K) : flGrid .exact vt lb ub st s = mkGrid vt lb ub st s := by
  have h1 : flParams .exact vt lb ub st s = gridParams vt lb ub st s := rfl
  have h2 : ∀ a b h : K, flArange .exact a b h = arange a b h := by
    intro a b h
    unfold flArange arange flCount
    rw [show flEntry (.exact : Rounding K) a h = fun i : ℕ => a + (i : K) * h from funext (flEntry_exact a h)]
    rfl
  unfold flGrid mkGrid
  rw [h1]
  simp only [h2]
  rfl

/-! ## Error bounds -/

theorem Rounding.abs_fl_sub {r : Rounding K} {x y e M : K} (hx : |x - y| ≤ e) (hM : |x| ≤ M) : |r.fl x - y| ≤ e + r.u * M := by
  have h1 := r.near x
  have h2 : r.u * |x| ≤ r.u * M := mul_le_mul_of_nonneg_left hM r.nonneg
  have h3 : |r.fl x - y| ≤ |r.fl x - x| + |x - y| := abs_sub_le _ _ _
  linarith

/-- What is assumed of the numbers: `M` bounds all numbers in the range, and the relative error is small against the square of the number of steps that
fit into `M`. -/
structure Scaled (r : Rounding K) (lb ub h M δ : K) : Prop where
  step : 0 < h
  le : lb ≤ ub
  lower : |lb| + h ≤ M
  upper : |ub| + h ≤ M
  err : 30 * r.u * (M / h) ^ 2 ≤ δ
  small : δ ≤ 1 / 4

namespace Scaled

variable {r : Rounding K} {lb ub h M δ : K} (hs : Scaled r lb ub h M δ)
include hs

theorem M_ge : h ≤ M := by have := hs.lower; have := abs_nonneg lb; linarith

theorem M_pos : 0 < M := hs.step.trans_le hs.M_ge

theorem one_le : 1 ≤ M / h := (one_le_div hs.step).mpr hs.M_ge

theorem errM : 30 * r.u * (M / h) * M ≤ δ * h := by
  have h1 := mul_le_mul_of_nonneg_right hs.err hs.step.le
  have h2 : 30 * r.u * (M / h) ^ 2 * h = 30 * r.u * (M / h) * M := by
    have := hs.step.ne'
    field_simp
  linarith

theorem errU : 30 * r.u * M ≤ δ * h := by
  have h1 := hs.errM
  have h2 : 30 * r.u * M * 1 ≤ 30 * r.u * M * (M / h) :=
    mul_le_mul_of_nonneg_left hs.one_le (by have := r.nonneg; have := hs.M_pos; positivity)
  nlinarith

theorem errK : 30 * r.u * (M / h) ≤ δ := by
  have h1 := hs.err
  have h2 : 30 * r.u * (M / h) * 1 ≤ 30 * r.u * (M / h) * (M / h) := by
    have := hs.step; have := hs.M_pos
    exact mul_le_mul_of_nonneg_left hs.one_le (by have := r.nonneg; positivity)
  nlinarith

theorem u_small : r.u ≤ 1 / 120 := by
  have h1 := hs.errK
  have h2 := hs.one_le
  have h3 := hs.small
  have h4 : 30 * r.u * 1 ≤ 30 * r.u * (M / h) := mul_le_mul_of_nonneg_left h2 (by have := r.nonneg; linarith)
  linarith

theorem range_le : ub - lb ≤ 2 * M := by
  have h1 := hs.lower; have h2 := hs.upper; have h3 := le_abs_self ub; have h4 := neg_abs_le lb; have h5 := hs.step
  linarith

/-- The computed number of steps is close to the exact one. -/
theorem count_near : |r.fl (r.fl (r.fl (ub + h) - lb) / h) - ((ub - lb) / h + 1)| ≤ δ := by
  have hu := hs.u_small
  have hu0 := r.nonneg
  have hM := hs.M_pos
  have hh := hs.step
  have e1 : |r.fl (ub + h) - (ub + h)| ≤ r.u * M := by
    have : |ub + h| ≤ M := (abs_add_le _ _).trans (by rw [abs_of_pos hh]; exact hs.upper)
    have := Rounding.abs_fl_sub (r := r) (x := ub + h) (y := ub + h) (e := 0) (by simp) this
    linarith
  have hr0 : 0 ≤ ub + h - lb := by have := hs.le; linarith
  have hr : ub + h - lb ≤ 2 * M := by
    have h1 := hs.lower; have h2 := hs.upper; have h3 := le_abs_self ub; have h4 := neg_abs_le lb
    linarith
  have e1' : |r.fl (ub + h) - lb - (ub + h - lb)| ≤ r.u * M := by
    rw [show r.fl (ub + h) - lb - (ub + h - lb) = r.fl (ub + h) - (ub + h) by ring]; exact e1
  have huM : r.u * M ≤ M := by nlinarith
  have e2 : |r.fl (r.fl (ub + h) - lb) - (ub + h - lb)| ≤ r.u * M + r.u * (3 * M) := by
    refine Rounding.abs_fl_sub e1' ?_
    have := abs_le.mp e1'
    rw [abs_le]; constructor <;> linarith
  set num := r.fl (r.fl (ub + h) - lb) with hnum
  have e2' : |num - (ub + h - lb)| ≤ 4 * (r.u * M) := by linarith
  have e3 : |num / h - ((ub - lb) / h + 1)| ≤ 4 * (r.u * (M / h)) := by
    have : num / h - ((ub - lb) / h + 1) = (num - (ub + h - lb)) / h := by field_simp; ring
    rw [this, abs_div, abs_of_pos hh, div_le_iff₀ hh]
    calc |num - (ub + h - lb)| ≤ 4 * (r.u * M) := e2'
      _ = 4 * (r.u * (M / h)) * h := by field_simp
  have hnb : |num / h| ≤ 6 * (M / h) := by
    rw [abs_div, abs_of_pos hh, ← mul_div_assoc]
    apply div_le_div_of_nonneg_right _ hh.le
    have := abs_le.mp e2'
    rw [abs_le]; constructor <;> linarith
  have e4 := Rounding.abs_fl_sub (r := r) e3 hnb
  have e5 := hs.errK
  have e6 : 0 ≤ r.u * (M / h) := by have := hs.one_le; positivity
  nlinarith

theorem count_bounds : ((ub - lb) / h + 1 - δ ≤ (flCount r lb (r.fl (ub + h)) h : K)) ∧
    (flCount r lb (r.fl (ub + h)) h : K) < (ub - lb) / h + 2 + δ := by
  have h1 := abs_le.mp hs.count_near
  have hq : 0 ≤ (ub - lb) / h := div_nonneg (by have := hs.le; linarith) hs.step.le
  have hsm := hs.small
  unfold flCount
  set z := r.fl (r.fl (r.fl (ub + h) - lb) / h)
  have hz : 0 ≤ ⌈z⌉ := Int.ceil_nonneg (by linarith)
  have hc : ((⌈z⌉.toNat : ℕ) : K) = (⌈z⌉ : K) := by
    have : ((⌈z⌉.toNat : ℕ) : ℤ) = ⌈z⌉ := Int.toNat_of_nonneg hz
    exact_mod_cast this
  rw [hc]
  constructor
  · have := Int.le_ceil z; linarith
  · have := Int.ceil_lt_add_one z; linarith

theorem count_pos : 1 ≤ flCount r lb (r.fl (ub + h)) h := by
  have h1 := hs.count_bounds.1
  have hq : 0 ≤ (ub - lb) / h := div_nonneg (by have := hs.le; linarith) hs.step.le
  have hsm := hs.small
  by_contra hn
  have : flCount r lb (r.fl (ub + h)) h = 0 := by omega
  rw [this] at h1
  push_cast at h1
  linarith

/-- Every computed value is close to its exact position. -/
theorem entry_near {i : ℕ} (hi : i < flCount r lb (r.fl (ub + h)) h) : |flEntry r lb h i - (lb + (i : K) * h)| ≤ δ * h := by
  have hu := hs.u_small
  have hu0 := r.nonneg
  have hM := hs.M_pos
  have hh := hs.step
  have hMh := hs.M_ge
  have hδ0 : 0 ≤ δ * h := by
    have := hs.errU
    have : 0 ≤ 30 * r.u * M := by positivity
    linarith
  have huM0 : 0 ≤ r.u * M := by positivity
  have huM : r.u * M ≤ M / 120 := by nlinarith
  have e1 : |r.fl (lb + h) - (lb + h)| ≤ r.u * M := by
    have : |lb + h| ≤ M := (abs_add_le _ _).trans (by rw [abs_of_pos hh]; exact hs.lower)
    have := Rounding.abs_fl_sub (r := r) (x := lb + h) (y := lb + h) (e := 0) (by simp) this
    linarith
  unfold flEntry
  by_cases h0 : i = 0
  · subst h0; rw [if_pos rfl]; simpa using hδ0
  rw [if_neg h0]
  by_cases h1 : i = 1
  · subst h1
    rw [if_pos rfl]
    have := hs.errU
    push_cast; rw [one_mul]
    linarith
  rw [if_neg h1]
  have hub := hs.count_bounds.2
  have hi' : (i : K) + 1 ≤ (flCount r lb (r.fl (ub + h)) h : K) := by exact_mod_cast hi
  have hik : (i : K) ≤ 4 * (M / h) := by
    have : (ub - lb) / h ≤ 2 * (M / h) := by
      rw [← mul_div_assoc]; exact div_le_div_of_nonneg_right hs.range_le hh.le
    have := hs.one_le; have := hs.small
    linarith
  have hi0 : (0 : K) ≤ i := Nat.cast_nonneg i
  have e1' : |r.fl (lb + h) - lb - h| ≤ r.u * M := by
    rw [show r.fl (lb + h) - lb - h = r.fl (lb + h) - (lb + h) by ring]; exact e1
  have e2 : |r.fl (r.fl (lb + h) - lb) - h| ≤ 3 * (r.u * M) := by
    have := Rounding.abs_fl_sub (r := r) e1' (M := 2 * M) (by
      have := abs_le.mp e1'
      rw [abs_le]; constructor <;> linarith)
    linarith
  set d := r.fl (r.fl (lb + h) - lb) with hd
  have hdM : |d| ≤ 2 * M := by
    have := abs_le.mp e2
    rw [abs_le]; constructor <;> linarith
  have e3 : |(i : K) * d - (i : K) * h| ≤ (i : K) * (3 * (r.u * M)) := by
    rw [← mul_sub, abs_mul, abs_of_nonneg hi0]
    exact mul_le_mul_of_nonneg_left e2 hi0
  have hidM : |(i : K) * d| ≤ (i : K) * (h + 3 * (r.u * M)) := by
    rw [abs_mul, abs_of_nonneg hi0]
    refine mul_le_mul_of_nonneg_left ?_ hi0
    have := abs_le.mp e2
    rw [abs_le]; constructor <;> linarith
  have e4 := Rounding.abs_fl_sub (r := r) e3 hidM
  have e4' : |r.fl ((i : K) * d) - (i : K) * h| ≤ (i : K) * (5 * (r.u * M)) := by
    refine e4.trans ?_
    have : r.u * (h + 3 * (r.u * M)) ≤ 2 * (r.u * M) := by nlinarith
    have := mul_le_mul_of_nonneg_left this hi0
    nlinarith
  set t := r.fl ((i : K) * d) with ht
  have e5 : |lb + t - (lb + (i : K) * h)| ≤ (i : K) * (5 * (r.u * M)) := by
    rw [show lb + t - (lb + (i : K) * h) = t - (i : K) * h by ring]; exact e4'
  have hih : (i : K) * h ≤ 4 * M := by
    calc (i : K) * h ≤ 4 * (M / h) * h := mul_le_mul_of_nonneg_right hik hh.le
      _ = 4 * M := by field_simp
  have hier : (i : K) * (5 * (r.u * M)) ≤ 20 * (r.u * (M / h) * M) := by
    have := mul_le_mul_of_nonneg_right hik (show (0 : K) ≤ 5 * (r.u * M) by positivity)
    calc (i : K) * (5 * (r.u * M)) ≤ 4 * (M / h) * (5 * (r.u * M)) := this
      _ = 20 * (r.u * (M / h) * M) := by ring
  have herr := hs.errM
  have hX : 0 ≤ r.u * (M / h) * M := by have := hs.one_le; positivity
  have hlbM : |lb| ≤ M := by have := hs.lower; linarith
  have habs : |lb + t| ≤ 6 * M := by
    have h1 := abs_le.mp e5
    have h2 := abs_le.mp hlbM
    have h3 : δ * h ≤ M := by
      have := hs.small
      have : δ * h ≤ 1 / 4 * h := mul_le_mul_of_nonneg_right hs.small hh.le
      linarith
    have hih0 : 0 ≤ (i : K) * h := by positivity
    have hE : (i : K) * (5 * (r.u * M)) ≤ M := by linarith
    rw [abs_le]; constructor <;> linarith
  have e6 := Rounding.abs_fl_sub (r := r) e5 habs
  have h7 : r.u * (6 * M) ≤ 6 * (r.u * (M / h) * M) := by
    have : r.u * M * 1 ≤ r.u * M * (M / h) := mul_le_mul_of_nonneg_left hs.one_le huM0
    linarith
  linarith

/-- Neighbouring values keep their order. -/
theorem entry_lt {i j : ℕ} (hij : i < j) (hj : j < flCount r lb (r.fl (ub + h)) h) : flEntry r lb h i < flEntry r lb h j := by
  have h1 := abs_le.mp (hs.entry_near (hij.trans hj))
  have h2 := abs_le.mp (hs.entry_near hj)
  have h3 : (i : K) * h + h ≤ (j : K) * h := by
    have : (i : K) + 1 ≤ (j : K) := by exact_mod_cast hij
    have := mul_le_mul_of_nonneg_right this hs.step.le
    linarith
  have h4 : δ * h ≤ 1 / 4 * h := mul_le_mul_of_nonneg_right hs.small hs.step.le
  have := hs.step
  linarith

end Scaled

/-- The step as it is computed (recourse/action_set.py:777-778): a relative step is a fraction of the range. -/
def computedStep (r : Rounding K) (st : StepType) (lb ub s : K) : K :=
  match st with
  | .relative => r.fl (s * r.fl (ub - lb))
  | .absolute => s

/-- A computed relative step is close to the exact one. -/
theorem computedStep_near {r : Rounding K} (hu : r.u ≤ 1) {lb ub s : K} (h : lb ≤ ub) (hs : 0 ≤ s) :
    |computedStep r .relative lb ub s - s * (ub - lb)| ≤ 3 * r.u * (s * (ub - lb)) := by
  unfold computedStep
  dsimp only
  have hd : 0 ≤ ub - lb := by linarith
  have h1 : |r.fl (ub - lb) - (ub - lb)| ≤ r.u * (ub - lb) := by
    have := r.near (ub - lb); rwa [abs_of_nonneg hd] at this
  have h2 : |s * r.fl (ub - lb) - s * (ub - lb)| ≤ s * (r.u * (ub - lb)) := by
    rw [← mul_sub, abs_mul, abs_of_nonneg hs]; exact mul_le_mul_of_nonneg_left h1 hs
  have h0 := r.nonneg
  have hsd : 0 ≤ s * (ub - lb) := mul_nonneg hs hd
  have h3 : |s * r.fl (ub - lb)| ≤ 2 * (s * (ub - lb)) := by
    have := abs_le.mp h2
    rw [abs_le]; constructor <;> nlinarith
  have := Rounding.abs_fl_sub (r := r) h2 h3
  nlinarith

/-- What a grid for the bounds `lb`, `ub` with step `h` looks like, up to errors of `δ` steps: it starts at `lb`, increases strictly, each value is within
`δ` steps of its exact position, the upper bound is reached up to `2 δ` steps, and at most the last value exceeds it by more, by at most
one step. -/
structure NearGrid (lb ub h δ : K) (g : List K) : Prop where
  head : g.head? = some lb
  sorted : g.Pairwise (· < ·)
  near : ∀ (i : ℕ) (v : K), g[i]? = some v → |v - (lb + (i : K) * h)| ≤ δ * h
  last : ∀ v, g.getLast? = some v → ub - 2 * δ * h ≤ v ∧ v ≤ ub + (1 + 2 * δ) * h
  inner : ∀ v ∈ g.dropLast, v ≤ ub + 2 * δ * h

theorem Scaled.grid {r : Rounding K} {lb ub h M δ : K} (hs : Scaled r lb ub h M δ) :
    NearGrid lb ub h δ ((List.range (flCount r lb (r.fl (ub + h)) h)).map (flEntry r lb h)) := by
  have hn := hs.count_pos
  have hb := hs.count_bounds
  have hnear := fun (i : ℕ) => @Scaled.entry_near _ _ _ _ _ _ _ _ _ _ _ hs i
  have hlt := fun (i j : ℕ) => @Scaled.entry_lt _ _ _ _ _ _ _ _ _ _ _ hs i j
  set n := flCount r lb (r.fl (ub + h)) h with hnn
  have hh := hs.step
  have hq : (ub - lb) / h * h = ub - lb := div_mul_cancel₀ _ hh.ne'
  obtain ⟨m, hm⟩ : ∃ m, n = m + 1 := ⟨n - 1, by omega⟩
  have hmn : (n : K) = (m : K) + 1 := by rw [hm]; push_cast; ring
  refine ⟨?_, ?_, ?_, ?_, ?_⟩
  · rw [hm, List.range_succ_eq_map]
    simp [flEntry]
  · rw [List.pairwise_map]
    refine List.Pairwise.imp_of_mem (R := (· < ·)) ?_ List.pairwise_lt_range
    intro a b _ hb' hab
    exact hlt a b hab (List.mem_range.mp hb')
  · intro i v hv
    rw [List.getElem?_map] at hv
    obtain ⟨j, hj, rfl⟩ := Option.map_eq_some_iff.mp hv
    rw [List.getElem?_range] at hj
    · cases hj
      exact hnear i (by
        by_contra hc
        rw [List.getElem?_eq_none (by simpa using hc)] at hv
        cases hv)
    · by_contra hc
      rw [List.getElem?_eq_none (by simpa using hc)] at hj
      cases hj
  · intro v hv
    rw [hm, List.range_succ, List.map_append, List.map_singleton, List.getLast?_append] at hv
    simp only [List.getLast?_singleton, Option.some_or, Option.some.injEq] at hv
    subst hv
    have h1 := abs_le.mp (hnear m (by omega))
    have h2 := mul_le_mul_of_nonneg_right (show (ub - lb) / h - δ ≤ (m : K) by linarith) hh.le
    have h3 := mul_le_mul_of_nonneg_right (show (m : K) ≤ (ub - lb) / h + 1 + δ by linarith) hh.le
    constructor <;> nlinarith
  · intro v hv
    rw [hm, List.range_succ, List.map_append, List.map_singleton, List.dropLast_append_of_ne_nil (by simp)] at hv
    simp only [List.dropLast_singleton, List.append_nil, List.mem_map, List.mem_range] at hv
    obtain ⟨i, hi, rfl⟩ := hv
    have h1 := abs_le.mp (hnear i (by omega))
    have hi' : (i : K) + 1 ≤ (m : K) := by exact_mod_cast hi
    have h3 := mul_le_mul_of_nonneg_right (show (i : K) ≤ (ub - lb) / h + δ by linarith) hh.le
    nlinarith

/-- **C103**, real-valued features: in floating point arithmetic the grid starts at the lower bound, increases strictly, has the requested spacing and reaches
the upper bound, up to errors of `δ` steps; at most one value exceeds the upper bound by more than that, by at most one step. -/
theorem C103_grid {r : Rounding K} {vt : VType} (hvt : vt ≠ .int) {st : StepType} {lb ub s M δ : K}
    (hs : Scaled r lb ub (computedStep r st lb ub s) M δ) :
    ∃ g, flGrid r vt lb ub st s = .ok ⟨g, false⟩ ∧ NearGrid lb ub (computedStep r st lb ub s) δ g := by
  refine ⟨_, ?_, hs.grid⟩
  have hp : flParams r vt lb ub st s = (lb, ub, computedStep r st lb ub s) := by
    unfold flParams computedStep
    cases st <;> simp [hvt]
  unfold flGrid
  rw [hp]
  dsimp only
  unfold flArange
  rw [if_neg hs.step.ne', ok_bind, if_neg hvt]

/-- **C103**: `update_grid()` of a real-valued feature succeeds in floating point arithmetic, the element passes its self-check, and every offered value
is the current one, or lies between the lower bound and one step above the upper bound. -/
theorem C103_offered {r : Rounding K} {e : Elem K} {M δ : K} (hvt : e.vtype ≠ .int)
    (hs : Scaled r e.bounds.lb e.bounds.ub (computedStep r e.stepType e.bounds.lb e.bounds.ub e.stepSize) M δ) :
    ∃ e', e.updateGridFl r = .ok e' ∧ e'.checkRep = true ∧
      ∀ (x : K) (drop : Bool) (l : List K), e'.feasibleValues x false drop = .ok l → ∀ v ∈ l, v = x ∨
        (e.bounds.lb ≤ v ∧ v ≤ e.bounds.ub + (1 + 2 * δ) * computedStep r e.stepType e.bounds.lb e.bounds.ub e.stepSize) := by
  obtain ⟨g, hg, hN⟩ := C103_grid hvt hs
  refine ⟨{ e with grid := ⟨g, false⟩ }, ?_, ?_, ?_⟩
  · unfold Elem.updateGridFl
    rw [hg, ok_bind]
  · unfold Elem.checkRep
    simp only [Bool.and_eq_true, decide_eq_true_eq]
    exact ⟨⟨hs.le, hN.sorted.imp ne_of_lt⟩, hN.sorted.imp le_of_lt⟩
  · intro x drop l hl v hv
    have hx : FitsGrid ({ e with grid := ⟨g, false⟩ } : Elem K) x := fun h => by cases h
    rcases (C07_exact hx hl v).mp hv with h | ⟨-, hmem, -⟩
    · exact Or.inl h
    · refine Or.inr ⟨?_, ?_⟩
      · obtain ⟨t, ht⟩ : ∃ t, g = e.bounds.lb :: t := by
          have := hN.head
          cases g with
          | nil => cases this
          | cons a t => exact ⟨t, by simpa using this⟩
        have hv' : v ∈ e.bounds.lb :: t := ht ▸ hmem
        have hsort := hN.sorted
        rw [ht, List.pairwise_cons] at hsort
        rcases List.mem_cons.mp hv' with h | h
        · exact h ▸ le_refl _
        · exact (hsort.1 v h).le
      · have hne : g ≠ [] := List.ne_nil_of_mem hmem
        have hlast := hN.last _ (List.getLast?_eq_some_getLast hne)
        have hmem' : v ∈ g.dropLast ++ [g.getLast hne] := by rw [List.dropLast_append_getLast]; exact hmem
        have hh := hs.step
        rcases List.mem_append.mp hmem' with h | h
        · have := hN.inner v h
          linarith
        · rw [List.mem_singleton.mp h]; exact hlast.2

/-! ## Integers -/

/-- The rounding leaves integers up to `N` alone, and its error is below one unit there. -/
structure ExactTo (r : Rounding K) (N : K) : Prop where
  int : ∀ n : ℤ, |(n : K)| ≤ N → r.fl n = n
  err : r.u * N < 1

theorem ceil_fl_div {r : Rounding K} {N : K} (hr : ExactTo r N) {p H : ℤ} (hp : 0 ≤ p) (hpN : (p : K) ≤ N) (hH : 0 < H) :
    ⌈r.fl ((p : K) / (H : K))⌉ = ⌈(p : K) / (H : K)⌉ := by
  have hHK : (0 : K) < H := by exact_mod_cast hH
  have hH1 : (1 : K) ≤ H := by exact_mod_cast hH
  have hpK : (0 : K) ≤ p := by exact_mod_cast hp
  have hq0 : (0 : K) ≤ (p : K) / H := div_nonneg hpK hHK.le
  have hqp : (p : K) / H ≤ p := by
    rw [div_le_iff₀ hHK]; nlinarith
  set c := ⌈(p : K) / (H : K)⌉ with hc
  have hc0 : 0 ≤ c := Int.ceil_nonneg hq0
  have hcp : c ≤ p := Int.ceil_le.mpr (by exact_mod_cast hqp)
  apply le_antisymm
  · apply Int.ceil_le.mpr
    have h1 := r.mono _ _ (Int.le_ceil ((p : K) / (H : K)))
    rw [← hc, hr.int c (by
      rw [abs_of_nonneg (by exact_mod_cast hc0)]
      have : (c : K) ≤ p := by exact_mod_cast hcp
      linarith)] at h1
    exact h1
  · rw [← Int.sub_one_lt_iff, Int.lt_ceil]
    have h1 : ((c - 1 : ℤ) : K) < (p : K) / H := Int.lt_ceil.mp (by omega)
    have h2 : (c - 1) * H + 1 ≤ p := by
      rw [lt_div_iff₀ hHK] at h1
      have : (c - 1) * H < p := by exact_mod_cast h1
      omega
    have h3 : ((c - 1 : ℤ) : K) + 1 / H ≤ (p : K) / H := by
      rw [le_div_iff₀ hHK, add_mul, one_div_mul_cancel hHK.ne']
      exact_mod_cast h2
    have h4 := (abs_le.mp (r.near ((p : K) / H))).1
    rw [abs_of_nonneg hq0] at h4
    have h5 : r.u * ((p : K) / H) < 1 / H := by
      rw [← mul_div_assoc]
      apply div_lt_div_of_pos_right _ hHK
      exact (mul_le_mul_of_nonneg_left hpN r.nonneg).trans_lt hr.err
    linarith

/-- **C103**, integer features: nothing is lost as long as all numbers are small.  The grid computed in floating point arithmetic is the exact grid for the
computed step. -/
theorem C103_integers {r : Rounding K} {N : K} (hr : ExactTo r N) {st : StepType} {lb ub s : K} (hle : lb ≤ ub)
    (hstep : 0 < computedStep r st (⌊lb⌋ : K) (⌈ub⌉ : K) s)
    (hN : |(⌊lb⌋ : K)| + |(⌈ub⌉ : K)| + (⌈computedStep r st (⌊lb⌋ : K) (⌈ub⌉ : K) s⌉ : K) ≤ N) :
    flGrid r .int lb ub st s = mkGrid .int lb ub .absolute (computedStep r st (⌊lb⌋ : K) (⌈ub⌉ : K) s) := by
  set h := computedStep r st (⌊lb⌋ : K) (⌈ub⌉ : K) s with hh
  set H := ⌈h⌉ with hH
  set a := ⌊lb⌋ with ha
  set b := ⌈ub⌉ with hb
  have hHpos : 0 < H := Int.ceil_pos.mpr hstep
  have hHK : (0 : K) < H := by exact_mod_cast hHpos
  have hab : a ≤ b := by
    have : (a : K) ≤ b := (Int.floor_le lb).trans (hle.trans (Int.le_ceil ub))
    exact_mod_cast this
  have hp1 : flParams r .int lb ub st s = ((a : K), (b : K), (H : K)) := by
    cases st <;> rfl
  have hp2 : gridParams .int lb ub .absolute h = ((a : K), (b : K), (H : K)) := by
    rfl
  have hA := abs_nonneg (a : K)
  have hB := abs_nonneg (b : K)
  have hsum : r.fl ((b : K) + H) = (b : K) + H := by
    have := hr.int (b + H) (by
      push_cast
      have := abs_add_le (b : K) H
      rw [abs_of_pos hHK] at this
      linarith)
    push_cast at this
    exact this
  have hdiff : r.fl ((b : K) + H - a) = (b : K) + H - a := by
    have := hr.int (b + H - a) (by
      push_cast
      have h1 := abs_sub (b + H : K) (a : K)
      have := abs_add_le (b : K) H
      rw [abs_of_pos hHK] at this
      linarith)
    push_cast at this
    exact this
  have hcount : flCount r (a : K) ((b : K) + H) H = (⌈((b : K) + H - a) / H⌉).toNat := by
    unfold flCount
    rw [hdiff]
    have := ceil_fl_div hr (p := b + H - a) (H := H) (by omega) (by
      push_cast
      have := le_abs_self (b : K); have := neg_abs_le (a : K)
      linarith) hHpos
    push_cast at this
    rw [this]
  have hentry : ∀ i < (⌈((b : K) + H - a) / H⌉).toNat, flEntry r (a : K) H i = (a : K) + (i : K) * H := by
    intro i hi
    unfold flEntry
    by_cases h0 : i = 0
    · subst h0; simp
    rw [if_neg h0]
    have e1 : r.fl ((a : K) + H) = (a : K) + H := by
      have := hr.int (a + H) (by
        push_cast
        have := abs_add_le (a : K) H
        rw [abs_of_pos hHK] at this
        linarith)
      push_cast at this
      exact this
    by_cases h1 : i = 1
    · subst h1; rw [if_pos rfl, e1]; simp
    rw [if_neg h1, e1]
    have e2 : r.fl ((a : K) + H - a) = H := by
      rw [show (a : K) + H - a = (H : K) by ring]
      exact hr.int H (by rw [abs_of_pos hHK]; linarith)
    rw [e2]
    have hiq : (i : K) < ((b : K) + H - a) / H := by
      have : (i : ℤ) < ⌈((b : K) + H - a) / H⌉ := by omega
      have := Int.lt_ceil.mp this
      exact_mod_cast this
    rw [lt_div_iff₀ hHK] at hiq
    have hiH : (0 : K) ≤ (i : K) * H := by positivity
    have hba : (b : K) - a ≤ |(a : K)| + |(b : K)| := by
      have := le_abs_self (b : K); have := neg_abs_le (a : K)
      linarith
    have e3 : r.fl ((i : K) * H) = (i : K) * H := by
      have := hr.int (i * H) (by
        push_cast
        rw [abs_of_nonneg hiH]
        linarith)
      push_cast at this
      exact this
    rw [e3]
    have := hr.int (a + i * H) (by
      push_cast
      have h1 := le_abs_self (b : K)
      have h2 := neg_abs_le (a : K)
      rw [abs_le]; constructor <;> linarith)
    push_cast at this
    exact this
  unfold flGrid mkGrid
  rw [hp1, hp2]
  dsimp only
  rw [hsum]
  unfold flArange arange
  rw [if_neg hHK.ne', if_neg hHK.ne', hcount, List.map_congr_left fun i hi => hentry i (List.mem_range.mp hi)]

/-- With doubles integers are exact up to `2 ^ 52`. -/
theorem doubles_exactTo : ExactTo (doubles : Rounding K) (2 ^ 52) where
  int n hn := dbl_int (by
    have : |n| ≤ 2 ^ 52 := by exact_mod_cast hn
    omega)
  err := by
    show (1 : K) / 2 ^ 53 * 2 ^ 52 < 1
    norm_num

/-! ## Examples -/

/-- The default step `0.01`, as a double. -/
def oneHundredth : ℚ := 5764607523034235 / 2 ^ 59

/-- It is the double nearest to 1/100. -/
example : dbl (1 / 100 : ℚ) = oneHundredth := by decide +kernel

/-- Bounds 0 and 21 with the default step meet the hypotheses with errors below a billionth of a step. -/
theorem scaled_example : Scaled doubles (0 : ℚ) 21 (computedStep doubles .relative 0 21 oneHundredth) 22 (1 / 10 ^ 9) := by
  have h : computedStep doubles .relative (0 : ℚ) 21 oneHundredth = 7566047373982433 / 2 ^ 55 := by decide +kernel
  rw [h]
  refine ⟨by norm_num, by norm_num, by norm_num, by norm_num, ?_, by norm_num⟩
  show 30 * (1 / 2 ^ 53) * _ ≤ (1 : ℚ) / 10 ^ 9
  norm_num

/-- An integer feature between 0 and 100 with the default step. -/
example : flGrid doubles .int (0 : ℚ) 100 .relative oneHundredth = mkGrid .int 0 100 .absolute 1 := by
  have h : computedStep doubles .relative ((⌊(0 : ℚ)⌋ : ℤ) : ℚ) ((⌈(100 : ℚ)⌉ : ℤ) : ℚ) oneHundredth = 1 := by decide +kernel
  have := C103_integers (K := ℚ) doubles_exactTo (st := .relative) (lb := 0) (ub := 100) (s := oneHundredth) (by norm_num)
    (by rw [h]; norm_num) (by rw [h]; norm_num)
  rw [h] at this
  exact this

/-- The values of a computed grid. -/
def gridVals (g : Except Err (Grid ℚ)) : List ℚ :=
  match g with
  | .ok g => g.vals
  | .error _ => []

/-- **C103** refuted: with bounds 0 and 21 and the default step, exact arithmetic gives 101 values; in doubles there are 102, and the last one exceeds the
upper bound by one hundredth of the range. -/
theorem C103_bounds_refuted : ∃ g g' : List ℚ, mkGrid .float 0 21 .relative oneHundredth = .ok ⟨g, false⟩ ∧ g.length = 101 ∧
    flGrid doubles .float 0 21 .relative oneHundredth = .ok ⟨g', false⟩ ∧ g'.length = 102 ∧ ∃ v ∈ g', 21 + 1 / 5 < v := by
  refine ⟨gridVals (mkGrid .float 0 21 .relative oneHundredth), gridVals (flGrid doubles .float 0 21 .relative oneHundredth), ?_, ?_, ?_, ?_, ?_⟩ <;>
    decide +kernel

end Recourse
