import Verif.Model.RealExt
import Verif.Props.Ends
import Mathlib.Tactic.IntervalCases

/-!
# C90: the assumptions about numpy and scipy, over the real numbers
-/

set_option linter.unusedSectionVars false

namespace Recourse

variable {order : List String → List String}

theorem sampleVar_nonneg (l : List ℝ) (h : 1 < l.length) : 0 ≤ sampleVar l := by
  unfold sampleVar
  apply div_nonneg
  · apply List.sum_nonneg
    intro v hv
    obtain ⟨u, -, rfl⟩ := List.mem_map.mp hv
    positivity
  · have : (1 : ℝ) < l.length := by exact_mod_cast h
    linarith

theorem sum_sq_zero (l : List ℝ) (m : ℝ) (h : (l.map fun v => (v - m) ^ 2).sum = 0) : ∀ v ∈ l, v = m := by
  induction l with
  | nil => simp
  | cons a l ih =>
    rw [List.map_cons, List.sum_cons] at h
    have h1 : 0 ≤ (a - m) ^ 2 := by positivity
    have h2 : 0 ≤ (l.map fun v => (v - m) ^ 2).sum := by
      apply List.sum_nonneg
      intro v hv
      obtain ⟨u, -, rfl⟩ := List.mem_map.mp hv
      positivity
    intro v hv
    rcases List.mem_cons.mp hv with rfl | hv
    · have : (v - m) ^ 2 = 0 := by linarith
      have := pow_eq_zero_iff (two_ne_zero) |>.mp this
      linarith
    · exact ih (by linarith) v hv

theorem sum_const (l : List ℝ) (c : ℝ) (h : ∀ v ∈ l, v = c) : l.sum = l.length * c := by
  induction l with
  | nil => simp
  | cons a l ih =>
    rw [List.sum_cons, ih fun v hv => h v (List.mem_cons_of_mem _ hv), h a (List.mem_cons_self ..)]
    push_cast [List.length_cons]; ring

/-- A density can be estimated exactly for data with at least two different values. -/
theorem gaussianKde_ok_iff (l : List ℝ) : (∃ pdf, gaussianKde l = .ok pdf) ↔ ∃ u ∈ l, ∃ v ∈ l, u ≠ v := by
  unfold gaussianKde
  by_cases h1 : l.length ≤ 1
  · rw [if_pos h1]
    constructor
    · rintro ⟨_, h⟩; cases h
    · rintro ⟨u, hu, v, hv, hne⟩
      exfalso
      match l, h1 with
      | [], _ => cases hu
      | [a], _ =>
        rw [List.mem_singleton] at hu hv
        exact hne (hu.trans hv.symm)
  rw [if_neg h1]
  have hn : 1 < l.length := by omega
  have hn' : (1 : ℝ) < l.length := by exact_mod_cast hn
  by_cases h2 : sampleVar l = 0
  · rw [if_pos h2]
    constructor
    · rintro ⟨_, h⟩; cases h
    · rintro ⟨u, hu, v, hv, hne⟩
      exfalso
      unfold sampleVar at h2
      rw [div_eq_zero_iff] at h2
      have h3 := h2.resolve_right (by linarith)
      have := sum_sq_zero l _ h3
      exact hne ((this u hu).trans (this v hv).symm)
  · rw [if_neg h2]
    constructor
    · intro _
      by_contra hc
      push Not at hc
      apply h2
      obtain ⟨c, hcm⟩ : ∃ c, c ∈ l := List.exists_mem_of_ne_nil _ (by rintro rfl; simp at hn)
      have hconst : ∀ v ∈ l, v = c := fun v hv => hc v hv c hcm
      have hm : sampleMean l = c := by
        unfold sampleMean
        rw [sum_const l c hconst, mul_div_assoc, mul_div_cancel₀]
        linarith
      unfold sampleVar
      rw [hm, sum_const _ 0 (by
        intro v hv
        obtain ⟨u, hu, rfl⟩ := List.mem_map.mp hv
        rw [hconst u hu]; simp)]
      simp
    · intro _; exact ⟨_, rfl⟩

theorem gaussianKde_pos : PositiveDensity (realExt order) := by
  intro l pdf h v
  change gaussianKde l = .ok pdf at h
  unfold gaussianKde at h
  split_ifs at h with h1 h2
  cases h
  have hn : 1 < l.length := by omega
  have hvar : 0 < kdeVar l := by
    unfold kdeVar
    have h3 : 0 < sampleVar l := lt_of_le_of_ne (sampleVar_nonneg l hn) (Ne.symm h2)
    have h4 : (0 : ℝ) < l.length := by exact_mod_cast (by omega : 0 < l.length)
    have h5 := Real.rpow_pos_of_pos h4 (-(1 : ℝ) / 5)
    positivity
  apply div_pos
  · apply List.sum_pos
    · intro u hu
      obtain ⟨w, -, rfl⟩ := List.mem_map.mp hu
      have : 0 < Real.sqrt (2 * Real.pi * kdeVar l) := Real.sqrt_pos.mpr (by have := Real.pi_pos; positivity)
      exact div_pos (Real.exp_pos _) this
    · intro h0
      rw [List.map_eq_nil_iff] at h0
      rw [h0] at hn; simp at hn
  · exact_mod_cast (by omega : 0 < l.length)

theorem realExt_order (ho : ∀ l n, n ∈ order l ↔ n ∈ l) : SetOrderOk (realExt order) := ho

theorem realExt_log : LogIncreasing (realExt order) :=
  ⟨Real.log_one, fun _ _ hr hrs => Real.log_lt_log hr hrs⟩

/-- **C90**: what the other theorems assume of numpy and scipy is true of the functions they compute (over the real
numbers, without rounding): the logarithm is increasing with value 0 at 1, densities are positive, and they exist
exactly for data with at least two different values. -/
theorem C90_real (ho : ∀ l n, n ∈ order l ↔ n ∈ l) :
    SetOrderOk (realExt order) ∧ LogIncreasing (realExt order) ∧ LogOk (realExt order) ∧
    PositiveDensity (realExt order) ∧
    ∀ l, (∃ pdf, (realExt order).kde l = .ok pdf) ↔ ∃ u ∈ l, ∃ v ∈ l, u ≠ v :=
  ⟨ho, realExt_log, realExt_log.ok, gaussianKde_pos, gaussianKde_ok_iff⟩

/-- The smoothing of the density: for a column with `n` values the squared bandwidth is the sample variance divided by
`n ^ (2 / 5)` (Scott's rule in one dimension), stated without fractional powers.  So for 32 values it is a quarter of the
variance. -/
theorem C90_bandwidth (l : List ℝ) (hn : l ≠ []) :
    kdeVar l ^ 5 * (l.length : ℝ) ^ 2 = sampleVar l ^ 5 ∧ (l.length = 32 → kdeVar l = sampleVar l / 4) ∧
    (kdeVar l = 0 ↔ sampleVar l = 0) := by
  have h4 : (0 : ℝ) < l.length := by exact_mod_cast List.length_pos_iff.mpr hn
  have h5 : (((l.length : ℝ) ^ (-(1 : ℝ) / 5)) ^ 5) * l.length = 1 := by
    rw [← Real.rpow_natCast, ← Real.rpow_mul h4.le]
    norm_num
    rw [Real.rpow_neg_one, inv_mul_cancel₀ h4.ne']
  have h6 := Real.rpow_pos_of_pos h4 (-(1 : ℝ) / 5)
  unfold kdeVar
  generalize (l.length : ℝ) ^ (-(1 : ℝ) / 5) = r at h5 h6
  refine ⟨?_, fun h32 => ?_, ?_⟩
  · have : (sampleVar l * r ^ 2) ^ 5 * (l.length : ℝ) ^ 2 = sampleVar l ^ 5 * (r ^ 5 * l.length) ^ 2 := by ring
    rw [this, h5]; ring
  · rw [h32] at h5
    have h7 : r = 1 / 2 := by
      have : r ^ 5 = (1 / 2) ^ 5 := by
        have : r ^ 5 * 32 = 1 := by exact_mod_cast h5
        linarith
      exact (pow_left_inj₀ h6.le (by norm_num) (by norm_num)).mp this
    rw [h7]; ring
  · constructor
    · intro h
      rcases mul_eq_zero.mp h with h | h
      · exact h
      · exact absurd h (by positivity)
    · intro h; rw [h, zero_mul]

section
variable {X : List (List ℝ)} {names : List String} {y : Int} {custom : List (String × PyVal ℝ)} {dflt st : PyVal ℝ}
  {A : ActionSet ℝ} {be : Backend} {ct : CostType} {w : List ℝ} {t : ℝ} {b b1 b2 b3 : Builder ℝ} {x : List ℝ}
  {o : Oracle ℝ} {i : Info ℝ}

/-- Some two people differ in feature `j`. -/
def Varies (X : List (List ℝ)) (j : ℕ) : Prop :=
  ∃ r ∈ X, ∃ s ∈ X, ∃ u v, r[j]? = some u ∧ s[j]? = some v ∧ u ≠ v

theorem estimable_iff (hA : mkActionSet X names y custom dflt st = .ok A) {j : ℕ} {e : Elem ℝ}
    (he : A.elems[j]? = some e) : (∃ pdf, (realExt order).kde e.values = .ok pdf) ↔ Varies X j := by
  have hv := ((C17_construction hA).2.2.2.2.2.2.2.2.2.2 j e he).2.1
  refine (gaussianKde_ok_iff e.values).trans ?_
  constructor
  · rintro ⟨u, hu, v, hv', hne⟩
    obtain ⟨r, hr, hru⟩ := (hv u).mp hu
    obtain ⟨s, hs, hsv⟩ := (hv v).mp hv'
    exact ⟨r, hr, s, hs, u, v, hru, hsv, hne⟩
  · rintro ⟨r, hr, s, hs, u, v, hru, hsv, hne⟩
    exact ⟨u, (hv u).mpr ⟨r, hr, hru⟩, v, (hv v).mpr ⟨s, hs, hsv⟩, hne⟩

theorem real_estimable (hA : mkActionSet X names y custom dflt st = .ok A) (hwl : w.length = names.length) :
    Estimable (realExt order) A w ↔ ∀ (j : ℕ) (c : ℝ), w[j]? = some c → c ≠ 0 → Varies X j := by
  have hAl := (C17_construction hA).2.2.2.2.2.2.1
  constructor
  · intro h j c hc hc0
    obtain ⟨e, he⟩ : ∃ e, A.elems[j]? = some e :=
      ⟨_, List.getElem?_eq_getElem (by rw [hAl, ← hwl]; exact (List.getElem?_eq_some_iff.mp hc).1)⟩
    exact (estimable_iff (order := order) hA he).mp (h j e c he hc hc0)
  · intro h j e c he hc hc0
    exact (estimable_iff hA he).mpr (h j c hc hc0)

/-- **C88** over the real numbers: a new builder for a new set and a classifier whose coefficients are 0 or above
numpy's tolerance accepts a point within the grids exactly if it has the right length, people differ in every feature
that the classifier uses and, unless the cost type is `max`, some change is useful. -/
theorem C88_real (ho : ∀ l n, n ∈ order l ↔ n ∈ l)
    (hA : mkActionSet X names y custom dflt st = .ok A) (hb : mkBuilder be ct A w t = .ok b)
    (hw : ∀ c ∈ w, c = 0 ∨ 1 / 10 ^ 8 < |c|) (hx : WithinGrids A x) :
    (b.setX (realExt order) x).2 = .ok () ↔ x.length = names.length ∧
      (∀ (j : ℕ) (c : ℝ), w[j]? = some c → c ≠ 0 → Varies X j) ∧ (ct = .max ∨ UsefulMove A w x) := by
  rw [C88_fresh (realExt_order ho) realExt_log hA hb gaussianKde_pos hw hx,
    real_estimable hA (fresh_elem hA hb).2.2.2.1]

/-- Not every set that can be made can be used: if nobody differs in a feature that the classifier uses (a column of
zeros, say, for which the set is made without an error), no point is accepted. -/
theorem C90_constant_refuted (ho : ∀ l n, n ∈ order l ↔ n ∈ l)
    (hA : mkActionSet X names y custom dflt st = .ok A) (hb : mkBuilder be ct A w t = .ok b) {j : ℕ} {c : ℝ}
    (hc : w[j]? = some c) (hc0 : c ≠ 0) (hj : ¬ Varies X j) (x : List ℝ) :
    (b.setX (realExt order) x).2 ≠ .ok () := by
  intro h
  have hr : b.Reachable (realExt order) := .mk (.mk hA) hb
  obtain ⟨hn, -, -, hwl, hel⟩ := fresh_elem hA hb
  have hjn : j < names.length := by rw [← hwl]; exact (List.getElem?_eq_some_iff.mp hc).1
  obtain ⟨e, he⟩ : ∃ e, b.aset.elems[j]? = some e :=
    ⟨_, List.getElem?_eq_getElem (by rw [hr.ok.aset.wf.length, hn]; exact hjn)⟩
  obtain ⟨e0, c', he0, hc', rfl, hcache, hact, hdir⟩ := hel j e he
  rw [hc] at hc'; cases hc'
  have hy1 := (C17_construction hA).2.2.2.2.2.2.2.2.1
  obtain ⟨v, p, hp⟩ := setX_scores (realExt_order ho) hr.ok h j _ he (by
    unfold Elem.compatible
    dsimp only
    rw [hact, hdir]
    have h0 : A.yDesired * sgn c ≠ 0 :=
      mul_ne_zero (by rcases hy1 with h | h <;> rw [h] <;> simp) (by rw [Ne, sgn_eq_zero]; exact hc0)
    simp [h0])
  unfold Elem.percentile at hp
  obtain ⟨tb, htb, -⟩ := bind_ok_iff.mp hp
  unfold Elem.table at htb
  dsimp only at htb
  rw [hcache] at htb
  unfold Elem.freshTable Elem.newTable at htb
  simp only [bind_ok_iff] at htb
  obtain ⟨-, -, -, -, -, -, pdf, hpdf, -⟩ := htb
  exact hj ((estimable_iff (order := order) hA he0).mp ⟨pdf, hpdf⟩)

/-- **C90**, from data to answer.  For all data of zeros and ones in which every feature takes both values, all
classifiers with coefficients above numpy's tolerance, desired outcomes, back ends, cost types and exact solvers, over
the real numbers: the action set and the builder are made; a rejected person of zeros and ones is accepted exactly if,
unless the cost type is `max`, changing some feature helps; and then `fit()` answers, with `feasible` exactly if
`y * t + sum of max 0 (y * w_j)` is not negative. -/
theorem C90_pipeline (hor : ∀ l n, n ∈ order l ↔ n ∈ l) (ho : o.Exact)
    (hn : names ≠ []) (hnd : names.Nodup) (hne : ∀ n ∈ names, n ≠ "")
    (hX : ∀ r ∈ X, ZeroOne r ∧ r.length = names.length) (hv : ∀ j < names.length, Varies X j)
    (hy : y = 1 ∨ y = -1) (hwl : w.length = names.length) (hw : ∀ c ∈ w, 1 / 10 ^ 8 < |c|)
    (hx : ZeroOne x) (hxl : x.length = names.length) (hden : (y : ℝ) * (dot w x + t) < 0) (be : Backend) (ct : CostType) :
    ∃ A b, mkActionSet X names y [] defaultBounds (.str "relative") = .ok A ∧ mkBuilder be ct A w t = .ok b ∧
      ((b.setX (realExt order) x).2 = .ok () ↔ ct = .max ∨ ∃ (j : ℕ) (c xj : ℝ), w[j]? = some c ∧ x[j]? = some xj ∧
        0 < (y : ℝ) * (c * (1 - 2 * xj))) ∧
      ∀ b1, b.setX (realExt order) x = (b1, .ok ()) → ∃ b2 i, b1.fit o = .ok (b2, i) ∧
        (i.feasible = true ↔ 0 ≤ (y : ℝ) * t + (w.map fun c => max 0 ((y : ℝ) * c)).sum) := by
  have hX0 : X ≠ [] := by
    rintro rfl
    obtain ⟨r, hr, -⟩ := hv 0 (List.length_pos_iff.mpr hn)
    cases hr
  obtain ⟨A, hA⟩ := (C17_succeeds (X := X) (names := names) (y := y)).mpr
    ⟨hn, hnd, hne, hX0, fun r hr => (hX r hr).2, by rcases hy with h | h <;> simp [h], fun j hj => Or.inl (by
      intro u hu
      obtain ⟨r, hr, rfl⟩ := List.mem_map.mp hu
      refine (hX r hr).1 _ ?_
      rw [List.getD_eq_getElem _ _ (by rw [(hX r hr).2]; exact hj)]
      exact List.getElem_mem _)⟩
  obtain ⟨-, -, -, -, -, hAn, -⟩ := C17_construction hA
  obtain ⟨b, hb⟩ := mkBuilder_total (be := be) (ct := ct) (t := t) (A := A) (w := w) (by rw [hwl, hAn])
  have hyA : A.yDesired = y := by
    rw [(mkActionSet_spec hA).2.2.2.2.2.2.2]
    rcases hy with rfl | rfl <;> rfl
  have hest : Estimable (realExt order) A w := (real_estimable hA hwl).mpr fun j c hc _ =>
    hv j (by rw [← hwl]; exact (List.getElem?_eq_some_iff.mp hc).1)
  refine ⟨A, b, hA, hb, ?_, ?_⟩
  · rw [C88_binary (realExt_order hor) realExt_log hA (fun r hr => (hX r hr).1) hb gaussianKde_pos hest
      (fun c hc => Or.inr (hw c hc)) hx hxl, hyA]
  · intro b1 hs
    obtain ⟨feats, m, -, -, -, hb1⟩ := setX_ok hs
    have hm : b1.mip = some m := by rw [hb1]
    obtain ⟨b2, i, hf⟩ : ∃ b2 i, b1.fit o = .ok (b2, i) := by
      unfold Builder.fit; rw [hm]; exact ⟨_, _, rfl⟩
    refine ⟨b2, i, hf, ?_⟩
    obtain ⟨-, hbc, hbi, -⟩ := mkBuilder_parts hb
    rw [C89_binary (realExt_order hor) realExt_log ho hA (fun r hr => (hX r hr).1) hb gaussianKde_pos hx (by
      unfold Denied; rw [(fresh_elem hA hb).2.2.1, hyA, hbc, hbi]; exact hden) hs .refl hf, hyA]

/-- **C90**, audits.  Over the real numbers, an audit (with a new set and desired outcome 1) of people within the grids,
at least one of them rejected, succeeds if people in the data differ in every feature that the classifier uses, and the
answer is the same for all rejected people. -/
theorem C90_audit {ι : Type} {P : List (ι × List ℝ)} {ad : Auditor ℝ} (hor : ∀ l n, n ∈ order l ↔ n ∈ l)
    (ho : o.Exact) (hA : mkActionSet X names 1 custom dflt st = .ok A) (had : mkAuditor be A w t = .ok ad)
    (hwl : w.length = names.length) (hv : ∀ (j : ℕ) (c : ℝ), w[j]? = some c → c ≠ 0 → Varies X j)
    (hw : ∀ c ∈ w, c = 0 ∨ 1 / 10 ^ 8 < |c|)
    (hP : ∀ p ∈ P, WithinGrids A p.2 ∧ p.2.length = names.length) (hsome : ∃ p ∈ P, dot w p.2 + t < 0) :
    ∃ ad' T, ad.audit (realExt order) o P 1 = (ad', .ok T) ∧ T.length = P.length ∧
      ∀ (k : ℕ) (l : ι) (x : List ℝ), P[k]? = some (l, x) → ∃ row, T[k]? = some (l, row) ∧
        row.feasible = if 0 ≤ dot w x + t then none else some (decide (0 ≤ dot w (bestPoint A w) + t)) :=
  C89_audit hor realExt_log ho hA had gaussianKde_pos ((real_estimable hA hwl).mpr hv) hw hP hsome

end

/-- Non-vacuity of `C90_pipeline`: two features, two people, a person whose recourse needs both changes, and an
exact solver. -/
example : ∃ o : Oracle ℝ, o.Exact ∧ ∃ A b b1 b2 i,
    mkActionSet [[0, 1], [1, (0 : ℝ)]] ["a", "b"] 1 [] defaultBounds (.str "relative") = .ok A ∧
    mkBuilder .cpx .total A [1, 1] (-2) = .ok b ∧ b.setX (realExt id) [0, 0] = (b1, .ok ()) ∧
    b1.fit o = .ok (b2, i) ∧ i.feasible = true := by
  obtain ⟨o, ho⟩ := exists_exact_oracle ℝ
  have hv : ∀ j < 2, Varies [[0, 1], [1, (0 : ℝ)]] j := by
    intro j hj
    refine ⟨[0, 1], by simp, [1, 0], by simp, ?_⟩
    match j, hj with
    | 0, _ => exact ⟨0, 1, rfl, rfl, by norm_num⟩
    | 1, _ => exact ⟨1, 0, rfl, rfl, by norm_num⟩
  have h8 : (1 : ℝ) / 10 ^ 8 < 1 := by norm_num
  obtain ⟨A, b, hA, hb, hacc, hfit⟩ := C90_pipeline (order := id) (o := o) (X := [[0, 1], [1, (0 : ℝ)]])
    (names := ["a", "b"]) (y := 1) (w := [1, 1]) (t := -2) (x := [0, 0]) (by simp) ho (by simp) (by simp) (by simp)
    (by intro r hr; fin_cases hr <;> simp [ZeroOne]) hv (Or.inl rfl) rfl (by simpa using h8) (by simp [ZeroOne]) rfl
    (by simp [dot]) .cpx .total
  have hok := hacc.mpr (Or.inr ⟨0, 1, 0, rfl, rfl, by norm_num⟩)
  obtain ⟨b2, i, hf, hi⟩ := hfit (b.setX (realExt id) [0, 0]).1 (by rw [← hok])
  refine ⟨o, ho, A, b, _, b2, i, hA, hb, by rw [← hok], hf, hi.mpr ?_⟩
  norm_num

/-- Non-vacuity of `C90_constant_refuted`: a set with a column of zeros, and a builder that uses it. -/
example : ∃ A b, mkActionSet [[0, 1], [0, (0 : ℝ)]] ["a", "b"] 1 [] defaultBounds (.str "relative") = .ok A ∧
    mkBuilder .cpx .total A [1, 1] (-2) = .ok b ∧ ¬ Varies [[0, 1], [0, (0 : ℝ)]] 0 := by
  obtain ⟨A, hA⟩ := (C17_succeeds (X := [[0, 1], [0, (0 : ℝ)]]) (names := ["a", "b"]) (y := 1)).mpr
    ⟨by simp, by simp, by simp, by simp, by simp, by simp, fun j hj => Or.inl (by
      intro u hu
      simp only [List.length_cons, List.length_nil] at hj
      interval_cases j <;> simp [column] at hu <;> first | simp [hu] | (rcases hu with h | h <;> simp [h]))⟩
  obtain ⟨-, -, -, -, -, hAn, -⟩ := C17_construction hA
  obtain ⟨b, hb⟩ := mkBuilder_total (be := .cpx) (ct := .total) (t := (-2 : ℝ)) (A := A) (w := [1, 1]) (by rw [hAn]; rfl)
  refine ⟨A, b, hA, hb, ?_⟩
  rintro ⟨r, hr, r', hr', h⟩
  simp at hr hr'
  rcases hr with rfl | rfl <;> rcases hr' with rfl | rfl <;> simp at h

end Recourse
