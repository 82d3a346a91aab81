import Verif.Model.FloatPercentile
import Verif.Lemmas.Percentile
import Verif.Lemmas.Synced
import Verif.Props.Accept
import Verif.Props.FloatBuild

/-!
# C112: percentiles and costs in floating point arithmetic
-/

set_option linter.unusedSectionVars false

namespace Recourse

variable {K : Type} [Field K] [LinearOrder K] [IsStrictOrderedRing K] [FloorRing K]

variable {ext : Ext K} {r : Rounding K} {e : Elem K} {t t' : Table K}

/-! ## The computed table -/

theorem newTableFl_spec {a b : K} (h : e.newTableFl r ext a b = .ok t) :
    ∃ pdf, ext.kde e.values = .ok pdf ∧ (0 ≤ a ∧ a < 1) ∧ (0 ≤ b ∧ b < 1) ∧ r.fl (a + b) < 1 ∧
      t = { xs := e.grid.vals, ys := (cumsumFromFl r 0 (e.grid.vals.map fun v => r.fl (pdf v))).map fun c =>
              r.fl (r.fl (a + c) / r.fl (r.fl ((cumsumFromFl r 0 (e.grid.vals.map fun v => r.fl (pdf v))).getLastD 0 + a) + b)),
            lo := a, hi := r.fl (1 - b) } := by
  unfold Elem.newTableFl at h
  obtain ⟨_, h1, h⟩ := bind_ok_iff.mp h
  obtain ⟨_, h2, h⟩ := bind_ok_iff.mp h
  obtain ⟨_, h3, h⟩ := bind_ok_iff.mp h
  obtain ⟨pdf, hpdf, h⟩ := bind_ok_iff.mp h
  simp only [Except.ok.injEq] at h
  exact ⟨pdf, hpdf, by simpa [pyAssert_ok_iff] using h1, by simpa [pyAssert_ok_iff] using h2,
    by simpa [pyAssert_ok_iff] using h3, h.symm⟩

theorem cumsumFromFl_length (acc : K) (l : List K) : (cumsumFromFl r acc l).length = l.length := by
  induction l generalizing acc with
  | nil => rfl
  | cons p ps ih => simp [cumsumFromFl, ih]

theorem cumsumFromFl_exact (acc : K) (l : List K) : cumsumFromFl .exact acc l = cumsumFrom acc l := by
  induction l generalizing acc with
  | nil => rfl
  | cons p ps ih => show _ :: _ = _ :: _; rw [ih]; rfl

/-- Running totals of rounded, nonnegative densities never decrease, whatever is rounded. -/
theorem cumsumFromFl_mono {l : List K} (hl : ∀ p ∈ l, 0 ≤ p) (acc : K) (hacc : r.fl acc = acc) :
    (acc :: cumsumFromFl r acc l).Pairwise (· ≤ ·) := by
  induction l generalizing acc with
  | nil => simp [cumsumFromFl]
  | cons p ps ih =>
    have h1 : acc ≤ r.fl (acc + p) := by
      have := r.mono acc (acc + p) (by have := hl p (by simp); linarith)
      rwa [hacc] at this
    have h2 := ih (fun q hq => hl q (List.mem_cons_of_mem _ hq)) (r.fl (acc + p)) (r.idem _)
    show (acc :: r.fl (acc + p) :: cumsumFromFl r (r.fl (acc + p)) ps).Pairwise (· ≤ ·)
    rw [List.pairwise_cons]
    refine ⟨fun c hc => ?_, h2⟩
    rcases List.mem_cons.mp hc with rfl | hc
    · exact h1
    · exact h1.trans ((List.pairwise_cons.mp h2).1 c hc)

theorem mem_le_getLastD {l : List K} (h : l.Pairwise (· ≤ ·)) {c : K} (hc : c ∈ l) (d : K) : c ≤ l.getLastD d := by
  induction l generalizing c d with
  | nil => cases hc
  | cons a l ih =>
    rw [List.getLastD_cons]
    rcases List.mem_cons.mp hc with rfl | hc
    · cases l with
      | nil => exact le_refl _
      | cons b l => exact ((List.pairwise_cons.mp h).1 b (by simp)).trans (ih h.of_cons (List.mem_cons_self ..) _)
    · exact ih h.of_cons hc _

/-- What the program can rely on: estimated densities are nonnegative. -/
def DensityNonneg (ext : Ext K) (e : Elem K) : Prop := ∀ pdf, ext.kde e.values = .ok pdf → ∀ v ∈ e.grid.vals, 0 ≤ pdf v

theorem fl_pos_iff (hu : r.u < 1) {z : K} : 0 < r.fl z ↔ 0 < z := by
  rw [← sgn_eq_one, sgn_fl hu, sgn_eq_one]

theorem total_pos {s a b : K} (hu : r.u < 1) (hs : 0 ≤ s) (ha : 0 < a) (hb : 0 ≤ b) : 0 < r.fl (r.fl (s + a) + b) := by
  have h1 : 0 < r.fl (s + a) := (fl_pos_iff hu).mpr (by linarith)
  exact (fl_pos_iff hu).mpr (by linarith)

theorem sums_of (hd : DensityNonneg ext e) {pdf : K → K} (hp : ext.kde e.values = .ok pdf) :
    (0 :: cumsumFromFl r 0 (e.grid.vals.map fun v => r.fl (pdf v))).Pairwise (· ≤ ·) := by
  refine cumsumFromFl_mono ?_ 0 r.zero
  intro p hm
  obtain ⟨v, hv, rfl⟩ := List.mem_map.mp hm
  exact r.nonneg_of (hd pdf hp v hv)

/-- **C112** (the table): however numbers are rounded, the table that the program computes has one percentile score for every grid value, and
the scores lie between 0 and 1 and never decrease. -/
theorem C112_table_partial (hu : r.u < 1) (h1 : r.fl 1 = 1) (hd : DensityNonneg ext e) {a b : K} (ha : 0 < a)
    (h : e.newTableFl r ext a b = .ok t) :
    t.xs = e.grid.vals ∧ t.ys.length = t.xs.length ∧ t.ys.Pairwise (· ≤ ·) ∧ ∀ y ∈ t.ys, 0 < y ∧ y ≤ 1 := by
  obtain ⟨pdf, hp, -, ⟨hb, -⟩, -, rfl⟩ := newTableFl_spec h
  have hs := sums_of (r := r) hd hp
  generalize hC : cumsumFromFl r 0 (e.grid.vals.map fun v => r.fl (pdf v)) = C at *
  have hlen : C.length = e.grid.vals.length := by rw [← hC, cumsumFromFl_length]; simp
  obtain ⟨h0, hs⟩ := List.pairwise_cons.mp hs
  have hl0 : 0 ≤ C.getLastD 0 := by
    cases hc : C with
    | nil => exact le_refl _
    | cons c cs => rw [hc] at hs h0; exact (h0 c (by simp)).trans (mem_le_getLastD hs (by simp) 0)
  have htot : 0 < r.fl (r.fl (C.getLastD 0 + a) + b) := total_pos hu hl0 ha hb
  refine ⟨rfl, by simp [hlen], ?_, ?_⟩
  · rw [List.pairwise_map]
    refine hs.imp ?_
    intro c d hcd
    exact r.mono _ _ (div_le_div_of_nonneg_right (r.mono _ _ (by linarith)) htot.le)
  · intro y hy
    obtain ⟨c, hc, rfl⟩ := List.mem_map.mp hy
    have hc0 := h0 c hc
    constructor
    · exact (fl_pos_iff hu).mpr (div_pos ((fl_pos_iff hu).mpr (by linarith)) htot)
    · have h2 : r.fl (a + c) ≤ r.fl (r.fl (C.getLastD 0 + a) + b) := by
        have h3 : r.fl (a + c) ≤ r.fl (C.getLastD 0 + a) := r.mono _ _ (by have := mem_le_getLastD hs hc 0; linarith)
        have h4 : r.fl (C.getLastD 0 + a) ≤ r.fl (r.fl (C.getLastD 0 + a) + b) := by
          have := r.mono (r.fl (C.getLastD 0 + a)) (r.fl (C.getLastD 0 + a) + b) (by linarith)
          rwa [r.idem] at this
        exact h3.trans h4
      have := r.mono _ _ ((div_le_one htot).mpr h2)
      rwa [h1] at this

/-! ## Values -/

theorem interpNpFl_at {gs ys : List K} (hg : gs.Pairwise (· < ·)) (hl : gs.length = ys.length)
    (hy : ∀ y ∈ ys, r.fl y = y) {i : ℕ} {g y : K} (h1 : gs[i]? = some g) (h2 : ys[i]? = some y) :
    interpNpFl r gs ys g = y := by
  induction i generalizing gs ys with
  | zero =>
    match gs, ys, h1, h2 with
    | g0 :: gs, y0 :: ys, h1, h2 =>
      simp only [List.getElem?_cons_zero, Option.some.injEq] at h1 h2
      subst h1 h2
      match gs, ys, hl with
      | [], [], _ => rfl
      | g1 :: gs, y1 :: ys, _ =>
        have hlt : g0 < g1 := (List.pairwise_cons.mp hg).1 g1 (by simp)
        rw [interpNpFl, if_pos hlt, sub_self, r.zero, mul_zero, r.zero, zero_add, hy y0 (by simp)]
  | succ i ih =>
    match gs, ys, h1, h2 with
    | g0 :: gs, y0 :: ys, h1, h2 =>
      rw [List.getElem?_cons_succ] at h1 h2
      match gs, ys, hl, h1, h2 with
      | [], [], _, h1, _ => simp at h1
      | g1 :: gs, y1 :: ys, hl, h1, h2 =>
        have hge : g1 ≤ g := by
          rcases List.mem_cons.mp (List.mem_of_getElem? h1) with rfl | hm
          · exact le_refl _
          · exact ((List.pairwise_cons.mp hg.of_cons).1 g hm).le
        rw [interpNpFl, if_neg (not_lt.mpr hge)]
        exact ih hg.of_cons (by simpa using hl) (fun y hm => hy y (List.mem_cons_of_mem _ hm)) h1 h2

/-- The right end of a segment, as the program computes it. -/
theorem seg_right_err (hu : r.u < 1) {D y0 y1 : K} (hD : 0 < D) (h0 : 0 ≤ y0) (h01 : y0 ≤ y1) :
    |r.fl (r.fl (r.fl (r.fl (y1 - y0) / r.fl D) * r.fl D) + y0) - y1| ≤ ((1 + r.u) ^ 4 - 1) * y1 := by
  have hu0 := r.nonneg
  have hD' : 0 < r.fl D := (fl_pos_iff hu).mpr hD
  have up : ∀ z : K, 0 ≤ z → r.fl z ≤ (1 + r.u) * z := by
    intro z hz
    have := (abs_le.mp (r.near z)).2
    rw [abs_of_nonneg hz] at this
    linarith
  have dn : ∀ z : K, 0 ≤ z → (1 - r.u) * z ≤ r.fl z := by
    intro z hz
    have := (abs_le.mp (r.near z)).1
    rw [abs_of_nonneg hz] at this
    linarith
  set A := r.fl (y1 - y0) with hA
  have hA0 : 0 ≤ A := r.nonneg_of (by linarith)
  have a1 : A ≤ (1 + r.u) * (y1 - y0) := up _ (by linarith)
  have a2 : (1 - r.u) * (y1 - y0) ≤ A := dn _ (by linarith)
  set B := r.fl (A / r.fl D) * r.fl D with hB
  have hq : 0 ≤ A / r.fl D := div_nonneg hA0 hD'.le
  have hB0 : 0 ≤ B := mul_nonneg (r.nonneg_of hq) hD'.le
  have b1 : B ≤ (1 + r.u) * A := by
    have := mul_le_mul_of_nonneg_right (up _ hq) hD'.le
    rwa [mul_assoc, div_mul_cancel₀ _ hD'.ne'] at this
  have b2 : (1 - r.u) * A ≤ B := by
    have := mul_le_mul_of_nonneg_right (dn _ hq) hD'.le
    rwa [mul_assoc, div_mul_cancel₀ _ hD'.ne'] at this
  have c0 : 0 ≤ r.fl B := r.nonneg_of hB0
  have c1 := up B hB0
  have c2 := dn B hB0
  have d1 := up (r.fl B + y0) (by linarith)
  have d2 := dn (r.fl B + y0) (by linarith)
  have hm0 : 0 ≤ 1 - r.u := by linarith
  have hd : 0 ≤ y1 - y0 := by linarith
  have U1 : r.fl B ≤ (1 + r.u) ^ 3 * (y1 - y0) := by
    have e1 : (1 + r.u) * B ≤ (1 + r.u) * ((1 + r.u) * A) := mul_le_mul_of_nonneg_left b1 (by linarith)
    have e2 : (1 + r.u) * ((1 + r.u) * A) ≤ (1 + r.u) * ((1 + r.u) * ((1 + r.u) * (y1 - y0))) :=
      mul_le_mul_of_nonneg_left (mul_le_mul_of_nonneg_left a1 (by linarith)) (by linarith)
    have e3 : (1 + r.u) * ((1 + r.u) * ((1 + r.u) * (y1 - y0))) = (1 + r.u) ^ 3 * (y1 - y0) := by ring
    linarith
  have L1 : (1 - r.u) ^ 3 * (y1 - y0) ≤ r.fl B := by
    have e1 : (1 - r.u) * ((1 - r.u) * A) ≤ (1 - r.u) * B := mul_le_mul_of_nonneg_left b2 hm0
    have e2 : (1 - r.u) * ((1 - r.u) * ((1 - r.u) * (y1 - y0))) ≤ (1 - r.u) * ((1 - r.u) * A) :=
      mul_le_mul_of_nonneg_left (mul_le_mul_of_nonneg_left a2 hm0) hm0
    have e3 : (1 - r.u) * ((1 - r.u) * ((1 - r.u) * (y1 - y0))) = (1 - r.u) ^ 3 * (y1 - y0) := by ring
    linarith
  have p3 : 1 ≤ (1 + r.u) ^ 3 := one_le_pow₀ (by linarith)
  have q3 : (1 - r.u) ^ 3 ≤ 1 := pow_le_one₀ hm0 (by linarith)
  have f1 : r.fl (r.fl B + y0) ≤ (1 + r.u) ^ 4 * y1 := by
    have g1 : r.fl B + y0 ≤ (1 + r.u) ^ 3 * y1 := by
      have : y0 ≤ (1 + r.u) ^ 3 * y0 := le_mul_of_one_le_left h0 p3
      have e : (1 + r.u) ^ 3 * y1 = (1 + r.u) ^ 3 * (y1 - y0) + (1 + r.u) ^ 3 * y0 := by ring
      linarith
    have g2 := mul_le_mul_of_nonneg_left g1 (show 0 ≤ 1 + r.u by linarith)
    have e : (1 + r.u) * ((1 + r.u) ^ 3 * y1) = (1 + r.u) ^ 4 * y1 := by ring
    linarith
  have f2 : (1 - r.u) ^ 4 * y1 ≤ r.fl (r.fl B + y0) := by
    have g1 : (1 - r.u) ^ 3 * y1 ≤ r.fl B + y0 := by
      have : (1 - r.u) ^ 3 * y0 ≤ y0 := mul_le_of_le_one_left h0 q3
      have e : (1 - r.u) ^ 3 * y1 = (1 - r.u) ^ 3 * (y1 - y0) + (1 - r.u) ^ 3 * y0 := by ring
      linarith
    have g2 := mul_le_mul_of_nonneg_left g1 hm0
    have e : (1 - r.u) * ((1 - r.u) ^ 3 * y1) = (1 - r.u) ^ 4 * y1 := by ring
    linarith
  have y10 : 0 ≤ y1 := by linarith
  have hsym : 1 - (1 - r.u) ^ 4 ≤ (1 + r.u) ^ 4 - 1 := by
    have : (1 + r.u) ^ 4 - 1 - (1 - (1 - r.u) ^ 4) = 12 * r.u ^ 2 + 2 * r.u ^ 4 := by ring
    have h6 : 0 ≤ 12 * r.u ^ 2 + 2 * r.u ^ 4 := by positivity
    linarith
  have hs := mul_le_mul_of_nonneg_right hsym y10
  rw [abs_le]
  constructor
  · nlinarith
  · nlinarith

theorem interpSciFl_at (hu : r.u < 1) {gs ys : List K} (hg : gs.Pairwise (· < ·)) (hl : gs.length = ys.length)
    (hys : ys.Pairwise (· ≤ ·)) (hy : ∀ y ∈ ys, r.fl y = y ∧ 0 ≤ y) {i : ℕ} {g y : K} (h1 : gs[i]? = some g) (h2 : ys[i]? = some y) :
    |interpSciFl r gs ys g - y| ≤ ((1 + r.u) ^ 4 - 1) * y := by
  have hp4 : 0 ≤ (1 + r.u) ^ 4 - 1 := by
    have : 1 ≤ (1 + r.u) ^ 4 := one_le_pow₀ (by have := r.nonneg; linarith)
    linarith
  induction i generalizing gs ys with
  | zero =>
    have hnn : 0 ≤ ((1 + r.u) ^ 4 - 1) * y := mul_nonneg hp4 (hy y (List.mem_of_getElem? h2)).2
    match gs, ys, h1, h2 with
    | g0 :: gs, y0 :: ys, h1, h2 =>
      simp only [List.getElem?_cons_zero, Option.some.injEq] at h1 h2
      subst h1 h2
      match gs, ys, hl with
      | [], [], _ => simpa [interpSciFl] using hnn
      | g1 :: gs, y1 :: ys, _ =>
        have hlt : g0 < g1 := (List.pairwise_cons.mp hg).1 g1 (by simp)
        rw [interpSciFl, if_pos hlt.le, sub_self, r.zero, mul_zero, r.zero, zero_add, (hy y0 (by simp)).1, sub_self, abs_zero]
        exact hnn
  | succ i ih =>
    match gs, ys, h1, h2 with
    | g0 :: gs, y0 :: ys, h1, h2 =>
      rw [List.getElem?_cons_succ] at h1 h2
      match gs, ys, hl, h1, h2 with
      | [], [], _, h1, _ => simp at h1
      | g1 :: gs, y1 :: ys, hl, h1, h2 =>
        rcases List.mem_cons.mp (List.mem_of_getElem? h1) with hgg | hm
        · have hi : i = 0 := by
            by_contra hne
            obtain ⟨j, rfl⟩ : ∃ j, i = j + 1 := ⟨i - 1, by omega⟩
            rw [List.getElem?_cons_succ] at h1
            have := (List.pairwise_cons.mp hg.of_cons).1 g (List.mem_of_getElem? h1)
            rw [hgg] at this
            exact lt_irrefl _ this
          subst hi
          simp only [List.getElem?_cons_zero, Option.some.injEq] at h2
          subst hgg h2
          have hlt : g0 < g := (List.pairwise_cons.mp hg).1 g (by simp)
          rw [interpSciFl, if_pos (le_refl _)]
          exact seg_right_err hu (by linarith) (hy y0 (by simp)).2 ((List.pairwise_cons.mp hys).1 y1 (by simp))
        · have hgt : g1 < g := (List.pairwise_cons.mp hg.of_cons).1 g hm
          rw [interpSciFl, if_neg (not_le.mpr hgt)]
          exact ih hg.of_cons (by simpa using hl) hys.of_cons (fun y hm => hy y (List.mem_cons_of_mem _ hm)) h1 h2

/-- What the tables of this section satisfy. -/
structure TableFl (r : Rounding K) (e : Elem K) (t : Table K) : Prop where
  xs : t.xs = e.grid.vals
  len : t.xs.length = t.ys.length
  mono : t.ys.Pairwise (· ≤ ·)
  range : ∀ y ∈ t.ys, 0 < y ∧ y ≤ 1
  float : ∀ y ∈ t.ys, r.fl y = y

theorem TableFl.of (hu : r.u < 1) (h1 : r.fl 1 = 1) (hd : DensityNonneg ext e) {a b : K} (ha : 0 < a)
    (h : e.newTableFl r ext a b = .ok t) : TableFl r e t := by
  obtain ⟨h2, h3, h4, h5⟩ := C112_table_partial hu h1 hd ha h
  refine ⟨h2, h3.symm, h4, h5, ?_⟩
  obtain ⟨pdf, -, -, -, -, rfl⟩ := newTableFl_spec h
  intro y hy
  obtain ⟨c, -, rfl⟩ := List.mem_map.mp hy
  exact r.idem _

/-- **C112** (grid values): at a grid value of a float feature the percentile is the score in the table, with no further rounding; at a grid
value of an integer feature it differs from that score by less than four rounding errors. -/
theorem C112_grid (hu : r.u < 1) (h1 : r.fl 1 = 1) (hg : e.GridOk) (hd : DensityNonneg ext e) {a b : K} (ha : 0 < a)
    (h : e.newTableFl r ext a b = .ok t) {i : ℕ} {g : K} (hi : e.grid.vals[i]? = some g) :
    ∃ y, t.ys[i]? = some y ∧ (e.grid.isInt = false → t.evalFl r e.grid.isInt g = y) ∧
      |t.evalFl r e.grid.isInt g - y| ≤ ((1 + r.u) ^ 4 - 1) * y := by
  have ht := TableFl.of hu h1 hd ha h
  have hx : t.xs[i]? = some g := by rw [ht.xs]; exact hi
  have hsort : t.xs.Pairwise (· < ·) := by rw [ht.xs]; exact hg.2
  obtain ⟨y, hy⟩ : ∃ y, t.ys[i]? = some y := by
    have : i < t.ys.length := by rw [← ht.len]; exact (List.getElem?_eq_some_iff.mp hx).1
    exact ⟨_, List.getElem?_eq_getElem this⟩
  have hlo : ¬ g < t.xs.headD 0 := by
    have hm := List.mem_of_getElem? hx
    cases hc : t.xs with
    | nil => rw [hc] at hm; cases hm
    | cons g0 gs =>
      rw [hc] at hm hsort
      rcases List.mem_cons.mp hm with rfl | hm
      · simp
      · simpa using ((List.pairwise_cons.mp hsort).1 g hm).le
  have hhi : ¬ t.xs.getLastD 0 < g :=
    not_lt.mpr (mem_le_getLastD (hsort.imp fun h => h.le) (List.mem_of_getElem? hx) 0)
  have hev : t.evalFl r e.grid.isInt g = if e.grid.isInt then interpSciFl r t.xs t.ys g else interpNpFl r t.xs t.ys g := by
    unfold Table.evalFl
    rw [if_neg hlo, if_neg hhi]
  have hp4 : 0 ≤ (1 + r.u) ^ 4 - 1 := by
    have : 1 ≤ (1 + r.u) ^ 4 := one_le_pow₀ (by have := r.nonneg; linarith)
    linarith
  refine ⟨y, hy, ?_, ?_⟩
  · intro hf
    rw [hev, hf, if_neg Bool.false_ne_true]
    exact interpNpFl_at hsort ht.len ht.float hx hy
  · rw [hev]
    by_cases hb : e.grid.isInt = true
    · rw [if_pos hb]
      exact interpSciFl_at hu hsort ht.len ht.mono (fun y hm => ⟨ht.float y hm, (ht.range y hm).1.le⟩) hx hy
    · rw [if_neg hb, interpNpFl_at hsort ht.len ht.float hx hy, sub_self, abs_zero]
      exact mul_nonneg hp4 (ht.range y (List.mem_of_getElem? hy)).1.le

/-! ## No rounding -/

theorem interpNpFl_exact {gs ys : List K} (hg : gs.Pairwise (· < ·)) (hl : gs.length = ys.length) (x : K) (hx : x ≤ gs.getLastD 0)
    (h0 : gs.headD 0 ≤ x) : interpNpFl .exact gs ys x = interpSeg gs ys x := by
  induction gs generalizing ys with
  | nil => cases ys with
    | nil => rfl
    | cons _ _ => simp at hl
  | cons g0 gs ih =>
    cases ys with
    | nil => simp at hl
    | cons y0 ys =>
      cases gs with
      | nil => cases ys <;> rfl
      | cons g1 gs =>
        cases ys with
        | nil => simp at hl
        | cons y1 ys =>
          have hlt : g0 < g1 := (List.pairwise_cons.mp hg).1 g1 (by simp)
          have hih : g1 ≤ x → interpNpFl .exact (g1 :: gs) (y1 :: ys) x = interpSeg (g1 :: gs) (y1 :: ys) x := fun h =>
            ih hg.of_cons (by simpa using hl) (by simpa only [List.getLastD_cons] using hx) h
          rw [interpNpFl, interpSeg]
          by_cases h1 : x < g1
          · rw [if_pos h1, if_pos h1.le]
            show (y1 - y0) / (g1 - g0) * (x - g0) + y0 = _
            ring
          · rw [if_neg h1, hih (not_lt.mp h1)]
            by_cases h2 : x ≤ g1
            · have hxe : x = g1 := le_antisymm h2 (not_lt.mp h1)
              rw [if_pos h2, hxe, div_mul_cancel₀ _ (sub_pos.mpr hlt).ne']
              cases gs with
              | nil => cases ys <;> simp [interpSeg]
              | cons g2 gs =>
                cases ys with
                | nil => simp at hl
                | cons y2 ys =>
                  rw [interpSeg, if_pos ((List.pairwise_cons.mp hg.of_cons).1 g2 (by simp)).le]
                  ring
            · rw [if_neg h2]

theorem interpSciFl_exact (gs ys : List K) (x : K) : interpSciFl .exact gs ys x = interpSeg gs ys x := by
  induction gs generalizing ys with
  | nil => cases ys <;> rfl
  | cons g0 gs ih =>
    cases gs with
    | nil => cases ys <;> rfl
    | cons g1 gs =>
      cases ys with
      | nil => rfl
      | cons y0 ys =>
        cases ys with
        | nil => rfl
        | cons y1 ys =>
          rw [interpSciFl, interpSeg, ih (y1 :: ys)]
          by_cases h : x ≤ g1
          · rw [if_pos h, if_pos h]
            show (y1 - y0) / (g1 - g0) * (x - g0) + y0 = _
            ring
          · rw [if_neg h, if_neg h]

theorem newTableFl_exact (ext : Ext K) (e : Elem K) (a b : K) : e.newTableFl .exact ext a b = e.newTable ext a b := by
  unfold Elem.newTableFl Elem.newTable
  simp only [cumsumFromFl_exact]
  rfl

/-- **C112**, link to the other properties: without rounding, the computed percentiles are those that all other properties speak about. -/
theorem C112_exact (ext : Ext K) {e : Elem K} (hg : e.GridOk) (hc : e.cache = none) (n : String) (x : K) (drop : Bool) :
    gridEntryFl .exact ext n e x drop = gridEntry ext n e x true drop := by
  unfold gridEntryFl gridEntry Elem.feasiblePercentilesFl Elem.feasiblePercentiles Elem.table
  rw [hc]
  dsimp only
  have hft : e.freshTableFl .exact ext = e.freshTable ext := newTableFl_exact ext e pbuf pbuf
  rw [hft]
  cases ht : e.freshTable ext with
  | error er => rfl
  | ok t =>
    have hev : t.evalFl .exact e.grid.isInt = t.eval := by
      funext v
      obtain ⟨pdf, -, -, -, -, rfl⟩ := newTable_spec ht
      unfold Table.evalFl Table.eval
      dsimp only
      split_ifs with h1 h2 h3
      · rfl
      · rfl
      · exact interpSciFl_exact _ _ _
      · refine interpNpFl_exact hg.2 ?_ _ (not_lt.mp h2) (not_lt.mp h1)
        simp [cumsum, cumsumFrom_length]
    rw [ok_bind, ok_bind, hev]

/-! ## Rounding errors of the table -/

/-- `z'` is `z` up to `k` rounding errors. -/
def WithinFl (r : Rounding K) (k : ℕ) (z z' : K) : Prop := (1 - r.u) ^ k * z ≤ z' ∧ z' ≤ (1 + r.u) ^ k * z

theorem WithinFl.mono (hu : r.u < 1) {k m : ℕ} (h : k ≤ m) {z z' : K} (hz : 0 ≤ z) (hw : WithinFl r k z z') : WithinFl r m z z' := by
  have h0 := r.nonneg
  constructor
  · exact (mul_le_mul_of_nonneg_right (pow_le_pow_of_le_one (by linarith) (by linarith) h) hz).trans hw.1
  · exact hw.2.trans (mul_le_mul_of_nonneg_right (pow_le_pow_right₀ (by linarith) h) hz)

theorem WithinFl.refl (z : K) : WithinFl r 0 z z := by constructor <;> simp

theorem WithinFl.add {k : ℕ} {z z' w w' : K} (h1 : WithinFl r k z z') (h2 : WithinFl r k w w') : WithinFl r k (z + w) (z' + w') := by
  constructor
  · rw [mul_add]; exact add_le_add h1.1 h2.1
  · rw [mul_add]; exact add_le_add h1.2 h2.2

theorem WithinFl.fl (hu : r.u < 1) {k : ℕ} {z z' : K} (hz : 0 ≤ z) (h : WithinFl r k z z') : WithinFl r (k + 1) z (r.fl z') := by
  have h0 := r.nonneg
  have hz' : 0 ≤ z' := (mul_nonneg (pow_nonneg (by linarith) k) hz).trans h.1
  have hn := abs_le.mp (r.near z')
  rw [abs_of_nonneg hz'] at hn
  constructor
  · have := mul_le_mul_of_nonneg_left h.1 (show 0 ≤ 1 - r.u by linarith)
    calc (1 - r.u) ^ (k + 1) * z = (1 - r.u) * ((1 - r.u) ^ k * z) := by ring
      _ ≤ (1 - r.u) * z' := this
      _ ≤ r.fl z' := by linarith [hn.1]
  · have := mul_le_mul_of_nonneg_left h.2 (show 0 ≤ 1 + r.u by linarith)
    calc r.fl z' ≤ (1 + r.u) * z' := by linarith [hn.2]
      _ ≤ (1 + r.u) * ((1 + r.u) ^ k * z) := this
      _ = (1 + r.u) ^ (k + 1) * z := by ring

theorem cumsumFromFl_within (hu : r.u < 1) {l : List K} (hl : ∀ p ∈ l, 0 ≤ p) {k : ℕ} {acc acc' : K} (hk : 1 ≤ k) (ha : 0 ≤ acc)
    (h : WithinFl r k acc acc') {m : ℕ} (hm : k + l.length ≤ m) :
    List.Forall₂ (fun c c' => 0 ≤ c ∧ WithinFl r m c c') (cumsumFrom acc l) (cumsumFromFl r acc' (l.map r.fl)) := by
  induction l generalizing acc acc' k with
  | nil => exact List.Forall₂.nil
  | cons p ps ih =>
    have hp : 0 ≤ p := hl p (by simp)
    have h1 : WithinFl r k p (r.fl p) := ((WithinFl.refl p).fl hu hp).mono hu hk hp
    have h2 : WithinFl r (k + 1) (acc + p) (r.fl (acc' + r.fl p)) := (h.add h1).fl hu (by linarith)
    simp only [List.length_cons] at hm
    show List.Forall₂ _ ((acc + p) :: cumsumFrom (acc + p) ps) (r.fl (acc' + r.fl p) :: cumsumFromFl r _ (ps.map r.fl))
    refine List.Forall₂.cons ⟨by linarith, h2.mono hu (by omega) (by linarith)⟩ ?_
    exact ih (fun q hq => hl q (List.mem_cons_of_mem _ hq)) (by omega) (by linarith) h2 (by omega)

theorem forall₂_getLastD {R : K → K → Prop} {l l' : List K} (h : List.Forall₂ R l l') {d d' : K} (hd : R d d') :
    R (l.getLastD d) (l'.getLastD d') := by
  induction h generalizing d d' with
  | nil => exact hd
  | cons h1 _ ih => rw [List.getLastD_cons, List.getLastD_cons]; exact ih h1

/-- **C112** (accuracy): every score in the computed table is the exact score up to a factor that depends only on the number of grid values: at
most `((1 + u) / (1 - u)) ^ (n + 3)`. -/
theorem C112_error (hu : r.u < 1) (hd : DensityNonneg ext e) {a b : K} (ha : 0 < a) (h : e.newTable ext a b = .ok t)
    (h' : e.newTableFl r ext a b = .ok t') :
    List.Forall₂ (fun y y' => ((1 - r.u) / (1 + r.u)) ^ (e.grid.vals.length + 3) * y ≤ y' ∧
      y' ≤ ((1 + r.u) / (1 - r.u)) ^ (e.grid.vals.length + 3) * y) t.ys t'.ys := by
  have h0 := r.nonneg
  obtain ⟨pdf, hp, -, ⟨hb, -⟩, -, rfl⟩ := newTable_spec h
  obtain ⟨pdf', hp', -, -, -, rfl⟩ := newTableFl_spec h'
  rw [hp, Except.ok.injEq] at hp'
  subst hp'
  set n := e.grid.vals.length with hn
  have hw := cumsumFromFl_within (r := r) hu (l := e.grid.vals.map pdf) (acc := 0) (acc' := 0) (k := 1) (m := n + 1)
    (fun p hm => by
      obtain ⟨v, hv, rfl⟩ := List.mem_map.mp hm
      exact hd pdf hp v hv) (le_refl _) (le_refl _) (by constructor <;> simp) (by simp; omega)
  rw [List.map_map] at hw
  have hmap : r.fl ∘ pdf = fun v => r.fl (pdf v) := rfl
  rw [hmap] at hw
  unfold cumsum
  generalize cumsumFrom 0 (e.grid.vals.map pdf) = C at *
  generalize cumsumFromFl r 0 (e.grid.vals.map fun v => r.fl (pdf v)) = C' at *
  have hlast := forall₂_getLastD hw (d := 0) (d' := 0) ⟨le_refl _, by constructor <;> simp⟩
  have hzero : ∀ {z : K} (k : ℕ), 0 ≤ z → WithinFl r k z z := fun {z} k hz => (WithinFl.refl z).mono hu (Nat.zero_le k) hz
  have hs : WithinFl r (n + 2) (C.getLastD 0 + a) (r.fl (C'.getLastD 0 + a)) :=
    (hlast.2.add (hzero _ ha.le)).fl hu (by linarith [hlast.1])
  have hT : WithinFl r (n + 3) (C.getLastD 0 + a + b) (r.fl (r.fl (C'.getLastD 0 + a) + b)) :=
    (hs.add (hzero _ hb)).fl hu (by linarith [hlast.1])
  have hTp : 0 < C.getLastD 0 + a + b := by linarith [hlast.1]
  have hl1 : 0 < 1 - r.u := by linarith
  have hl2 : 0 < 1 + r.u := by linarith
  set T := C.getLastD 0 + a + b with hTd
  set T' := r.fl (r.fl (C'.getLastD 0 + a) + b) with hTd'
  have hTp' : 0 < T' := lt_of_lt_of_le (mul_pos (pow_pos hl1 _) hTp) hT.1
  rw [List.forall₂_map_left_iff, List.forall₂_map_right_iff]
  refine hw.imp ?_
  rintro c c' ⟨hc, hcw⟩
  have hnum : WithinFl r (n + 2) (a + c) (r.fl (a + c')) := ((hzero (n + 1) ha.le).add hcw).fl hu (by linarith)
  have hnp : 0 ≤ a + c := by linarith
  have hnp' : 0 ≤ r.fl (a + c') := (mul_nonneg (pow_nonneg hl1.le _) hnp).trans hnum.1
  have hq := (WithinFl.refl (r := r) (r.fl (a + c') / T')).fl hu (div_nonneg hnp' hTp'.le)
  obtain ⟨q1, q2⟩ := hq
  rw [zero_add, pow_one] at q1 q2
  constructor
  · refine le_trans ?_ q1
    rw [div_pow, div_mul_div_comm]
    rw [← mul_div_assoc, div_le_div_iff₀ (mul_pos (pow_pos hl2 _) hTp) hTp']
    calc (1 - r.u) ^ (n + 3) * (a + c) * T' ≤ (1 - r.u) ^ (n + 3) * (a + c) * ((1 + r.u) ^ (n + 3) * T) :=
          mul_le_mul_of_nonneg_left hT.2 (mul_nonneg (pow_nonneg hl1.le _) hnp)
      _ = (1 - r.u) * ((1 - r.u) ^ (n + 2) * (a + c)) * ((1 + r.u) ^ (n + 3) * T) := by ring
      _ ≤ (1 - r.u) * r.fl (a + c') * ((1 + r.u) ^ (n + 3) * T) :=
          mul_le_mul_of_nonneg_right (mul_le_mul_of_nonneg_left hnum.1 hl1.le) (mul_pos (pow_pos hl2 _) hTp).le
  · refine le_trans q2 ?_
    rw [div_pow, div_mul_div_comm]
    rw [← mul_div_assoc, div_le_div_iff₀ hTp' (mul_pos (pow_pos hl1 _) hTp)]
    calc (1 + r.u) * r.fl (a + c') * ((1 - r.u) ^ (n + 3) * T)
          ≤ (1 + r.u) * ((1 + r.u) ^ (n + 2) * (a + c)) * ((1 - r.u) ^ (n + 3) * T) :=
          mul_le_mul_of_nonneg_right (mul_le_mul_of_nonneg_left hnum.2 hl2.le) (mul_pos (pow_pos hl1 _) hTp).le
      _ = (1 + r.u) ^ (n + 3) * (a + c) * ((1 - r.u) ^ (n + 3) * T) := by ring
      _ ≤ (1 + r.u) ^ (n + 3) * (a + c) * T' :=
          mul_le_mul_of_nonneg_left hT.1 (mul_nonneg (pow_nonneg hl2.le _) hnp)

/-- **C112** (below 1): if the densities over the grid do not add up to so much that the right buffer is lost in rounding, every score in
the computed table is below 1. -/
theorem C112_below_one (hu : r.u < 1) (hd : DensityNonneg ext e) {a b : K} (ha : 0 < a)
    (hS : ∀ pdf, ext.kde e.values = .ok pdf →
      2 * r.u * ((1 + r.u) ^ (e.grid.vals.length + 2) * ((e.grid.vals.map pdf).sum + a)) < (1 - r.u) * b)
    (h : e.newTableFl r ext a b = .ok t) : ∀ y ∈ t.ys, y < 1 := by
  have h0 := r.nonneg
  obtain ⟨pdf, hp, -, ⟨hb, -⟩, -, rfl⟩ := newTableFl_spec h
  have hs := sums_of (r := r) hd hp
  have hS := hS pdf hp
  set n := e.grid.vals.length with hn
  have hw := cumsumFromFl_within (r := r) hu (l := e.grid.vals.map pdf) (acc := 0) (acc' := 0) (k := 1) (m := n + 1)
    (fun p hm => by
      obtain ⟨v, hv, rfl⟩ := List.mem_map.mp hm
      exact hd pdf hp v hv) (le_refl _) (le_refl _) (by constructor <;> simp) (by simp; omega)
  rw [List.map_map] at hw
  have hmap : r.fl ∘ pdf = fun v => r.fl (pdf v) := rfl
  rw [hmap] at hw
  have hlast := forall₂_getLastD hw (d := 0) (d' := 0) ⟨le_refl _, by constructor <;> simp⟩
  have hsum : ∀ (l : List K) (acc : K), (cumsumFrom acc l).getLastD acc = acc + l.sum := by
    intro l
    induction l with
    | nil => intro acc; simp [cumsumFrom]
    | cons p ps ih => intro acc; rw [cumsumFrom, List.getLastD_cons, ih, List.sum_cons, add_assoc]
  rw [hsum, zero_add] at hlast
  generalize cumsumFromFl r 0 (e.grid.vals.map fun v => r.fl (pdf v)) = C at *
  obtain ⟨hc0, hs⟩ := List.pairwise_cons.mp hs
  have hW : WithinFl r (n + 2) ((e.grid.vals.map pdf).sum + a) (r.fl (C.getLastD 0 + a)) :=
    (hlast.2.add ((WithinFl.refl a).mono hu (Nat.zero_le _) ha.le)).fl hu (by linarith [hlast.1])
  set s := r.fl (C.getLastD 0 + a) with hsd
  have hl0 : 0 ≤ C.getLastD 0 := (mul_nonneg (pow_nonneg (by linarith) _) hlast.1).trans hlast.2.1
  have hs0 : 0 < s := (fl_pos_iff hu).mpr (by linarith)
  have hs2 : 2 * r.u * s < (1 - r.u) * b :=
    lt_of_le_of_lt (mul_le_mul_of_nonneg_left hW.2 (by linarith)) hS
  have hT : (1 - r.u) * (s + b) ≤ r.fl (s + b) := by
    have := (abs_le.mp (r.near (s + b))).1
    rw [abs_of_nonneg (by linarith)] at this
    linarith
  have hTp : 0 < r.fl (s + b) := (fl_pos_iff hu).mpr (by linarith)
  intro y hy
  obtain ⟨c, hc, rfl⟩ := List.mem_map.mp hy
  have hcs : r.fl (a + c) ≤ s := r.mono _ _ (by have := mem_le_getLastD hs hc 0; linarith)
  have hq0 : 0 ≤ r.fl (a + c) / r.fl (s + b) := div_nonneg (r.nonneg_of (by have := hc0 c hc; linarith)) hTp.le
  have hq := (abs_le.mp (r.near (r.fl (a + c) / r.fl (s + b)))).2
  rw [abs_of_nonneg hq0] at hq
  have h1 : (1 + r.u) * (r.fl (a + c) / r.fl (s + b)) < 1 := by
    rw [← mul_div_assoc, div_lt_one hTp]
    have : (1 + r.u) * r.fl (a + c) ≤ (1 + r.u) * s := mul_le_mul_of_nonneg_left hcs (by linarith)
    nlinarith
  linarith

/-! ## Costs -/

theorem upFl_mono (hlog : LogIncreasing ext) (hu : r.u < 1) (h1 : r.fl 1 = 1) {ct : CostType} {p q q' : K} (hpq : p ≤ q) (hqq : q ≤ q')
    (hone : ct = .loc → q' < 1) : 0 ≤ upFl r ext ct p q ∧ upFl r ext ct p q ≤ upFl r ext ct p q' := by
  unfold upFl
  by_cases hc : ct = .loc
  · rw [if_pos hc, if_pos hc]
    have hq' := hone hc
    have d' : 0 < r.fl (1 - q') := (fl_pos_iff hu).mpr (by linarith)
    have dd : r.fl (1 - q') ≤ r.fl (1 - q) := r.mono _ _ (by linarith)
    have dn : r.fl (1 - q) ≤ r.fl (1 - p) := r.mono _ _ (by linarith)
    have d : 0 < r.fl (1 - q) := d'.trans_le dd
    have hle := log_mono hlog
    have one_le : 1 ≤ r.fl (r.fl (1 - p) / r.fl (1 - q)) := by
      have := r.mono 1 _ ((one_le_div d).mpr dn)
      rwa [h1] at this
    constructor
    · have := hle 1 _ one_pos one_le
      rw [hlog.1] at this
      exact r.nonneg_of this
    · refine r.mono _ _ (hle _ _ (by linarith) (r.mono _ _ ?_))
      exact div_le_div_of_nonneg_left (by linarith) d' dd
  · rw [if_neg hc, if_neg hc]
    exact ⟨r.nonneg_of (by linarith), r.mono _ _ (by linarith)⟩
where
  log_mono (hlog : LogIncreasing ext) : ∀ a b : K, 0 < a → a ≤ b → ext.log a ≤ ext.log b := by
    intro a b ha hab
    rcases hab.lt_or_eq with h | h
    · exact (hlog.2 a b ha h).le
    · rw [h]

theorem dnFl_mono (hlog : LogIncreasing ext) (hu : r.u < 1) (h1 : r.fl 1 = 1) {ct : CostType} {p q q' : K} (hpq : q ≤ p) (hqq : q' ≤ q)
    (hone : ct = .loc → p < 1) : 0 ≤ dnFl r ext ct p q ∧ dnFl r ext ct p q ≤ dnFl r ext ct p q' := by
  unfold dnFl
  by_cases hc : ct = .loc
  · rw [if_pos hc, if_pos hc]
    have hp := hone hc
    have d : 0 < r.fl (1 - p) := (fl_pos_iff hu).mpr (by linarith)
    have d1 : r.fl (1 - p) ≤ r.fl (1 - q) := r.mono _ _ (by linarith)
    have d2 : r.fl (1 - q) ≤ r.fl (1 - q') := r.mono _ _ (by linarith)
    have hle := upFl_mono.log_mono hlog
    have one_le : 1 ≤ r.fl (r.fl (1 - q) / r.fl (1 - p)) := by
      have := r.mono 1 _ ((one_le_div d).mpr d1)
      rwa [h1] at this
    constructor
    · have := hle 1 _ one_pos one_le
      rw [hlog.1] at this
      exact r.nonneg_of this
    · exact r.mono _ _ (hle _ _ (by linarith) (r.mono _ _ (div_le_div_of_nonneg_right d2 d.le)))
  · rw [if_neg hc, if_neg hc]
    exact ⟨r.nonneg_of (by linarith), r.mono _ _ (by linarith)⟩

theorem evalFl_mono (hu : r.u < 1) (h1 : r.fl 1 = 1) (hg : e.GridOk) (hf : e.grid.isInt = false) (hd : DensityNonneg ext e) {a b : K}
    (ha : 0 < a) (h : e.newTableFl r ext a b = .ok t) {v w : K} (hv : v ∈ e.grid.vals) (hw : w ∈ e.grid.vals) (hvw : v ≤ w) :
    t.evalFl r e.grid.isInt v ∈ t.ys ∧ t.evalFl r e.grid.isInt v ≤ t.evalFl r e.grid.isInt w := by
  obtain ⟨i, hi⟩ := List.mem_iff_getElem?.mp hv
  obtain ⟨j, hj⟩ := List.mem_iff_getElem?.mp hw
  obtain ⟨y, hy, hye, -⟩ := C112_grid hu h1 hg hd ha h hi
  obtain ⟨z, hz, hze, -⟩ := C112_grid hu h1 hg hd ha h hj
  rw [hye hf, hze hf]
  refine ⟨List.mem_of_getElem? hy, ?_⟩
  rcases Nat.lt_or_ge j i with hlt | hge
  · exfalso
    obtain ⟨li, ei⟩ := List.getElem?_eq_some_iff.mp hi
    obtain ⟨lj, ej⟩ := List.getElem?_eq_some_iff.mp hj
    have := List.pairwise_iff_getElem.mp hg.2 j i lj li hlt
    rw [ei, ej] at this
    exact absurd hvw (not_le.mpr this)
  · rcases hge.lt_or_eq with hlt | he
    · obtain ⟨li, ei⟩ := List.getElem?_eq_some_iff.mp hy
      obtain ⟨lj, ej⟩ := List.getElem?_eq_some_iff.mp hz
      have := List.pairwise_iff_getElem.mp (TableFl.of hu h1 hd ha h).mono i j li lj hlt
      rwa [ei, ej] at this
    · subst he
      rw [hy] at hz
      rw [Option.some.injEq] at hz
      exact hz.le

theorem pbufFl_pos (hu : r.u < 1) : 0 < r.fl (pbuf : K) := (fl_pos_iff hu).mpr pbuf_pos

/-- **C112** (costs): for a float feature at a grid value, the cost that the program computes for moving up to another grid value is never
negative and never decreases with the distance; likewise for moving down. -/
theorem C112_costs_partial (hlog : LogIncreasing ext) (hu : r.u < 1) (h1 : r.fl 1 = 1) (hg : e.GridOk) (hf : e.grid.isInt = false)
    (hd : DensityNonneg ext e) (h : e.freshTableFl r ext = .ok t) {ct : CostType} (hone : ct = .loc → ∀ y ∈ t.ys, y < 1)
    {x v w : K} (hx : x ∈ e.grid.vals) (hv : v ∈ e.grid.vals) (hw : w ∈ e.grid.vals) :
    (x ≤ v → v ≤ w → 0 ≤ upFl r ext ct (t.evalFl r e.grid.isInt x) (t.evalFl r e.grid.isInt v) ∧
      upFl r ext ct (t.evalFl r e.grid.isInt x) (t.evalFl r e.grid.isInt v)
        ≤ upFl r ext ct (t.evalFl r e.grid.isInt x) (t.evalFl r e.grid.isInt w)) ∧
    (v ≤ x → w ≤ v → 0 ≤ dnFl r ext ct (t.evalFl r e.grid.isInt x) (t.evalFl r e.grid.isInt v) ∧
      dnFl r ext ct (t.evalFl r e.grid.isInt x) (t.evalFl r e.grid.isInt v)
        ≤ dnFl r ext ct (t.evalFl r e.grid.isInt x) (t.evalFl r e.grid.isInt w)) := by
  have hm := fun {v w : K} => evalFl_mono (v := v) (w := w) hu h1 hg hf hd (pbufFl_pos hu) h
  constructor
  · intro hxv hvw
    exact upFl_mono hlog hu h1 (hm hx hv hxv).2 (hm hv hw hvw).2 fun hc => hone hc _ (hm hw hw (le_refl _)).1
  · intro hvx hwv
    exact dnFl_mono hlog hu h1 (hm hv hx hvx).2 (hm hw hv hwv).2 fun hc => hone hc _ (hm hx hx (le_refl _)).1

theorem dropBugs_sublist : ∀ {l ac : List (K × K)}, dropBugs l = some ac → ac.Sublist l
  | [], ac, h => by simp [dropBugs] at h
  | (a, c) :: t, ac, h => by
      unfold dropBugs at h
      split_ifs at h with hb
      · cases h
        exact List.Sublist.cons₂ _ List.filter_sublist
      · simp only [Option.map_eq_some_iff] at h
        obtain ⟨r', hr, rfl⟩ := h
        exact (dropBugs_sublist hr).cons₂ _

/-- **C112** (offered actions): a float feature whose value is on the grid is given to the solver with costs that are never negative and never
decrease from one offered action to the next. -/
theorem C112_offered_partial (hlog : LogIncreasing ext) (hu : r.u < 1) (h1 : r.fl 1 = 1) (hg : e.GridOk) (hf : e.grid.isInt = false)
    (hd : DensityNonneg ext e) (h : e.freshTableFl r ext = .ok t) {b : Builder K} (hone : b.costType = .loc → ∀ y ∈ t.ys, y < 1)
    {x : List K} {xj : K} (hx : xj ∈ e.grid.vals) {n : String} {g : GridEntry K} (hge : gridEntryFl r ext n e xj true = .ok g)
    {d : Int} (hdir : e.flip = some d) (hdn : d < 0 ∨ 0 < d ∧ isClose ((g.acts.map r.fl).getLastD 0) 0 = false) {cn : List String}
    {f : Feat K} (hfe : mkFeatFl r ext b x cn g = .ok f) : f.costs.Pairwise (· ≤ ·) ∧ ∀ c ∈ f.costs, 0 ≤ c := by
  unfold gridEntryFl Elem.feasiblePercentilesFl Elem.feasibleValues at hge
  obtain ⟨acts, ha, hge⟩ := bind_ok_iff.mp hge
  obtain ⟨_, -, ha⟩ := bind_ok_iff.mp ha
  rw [if_pos rfl] at ha
  cases ha
  rw [h, ok_bind, ok_bind] at hge
  cases hge
  dsimp only at hdn
  -- the offered values
  have hbase : ∀ v ∈ e.baseX xj, v ∈ e.grid.vals := by
    intro v hv
    have hfit : e.actionable = true → FitsGrid e xj := fun _ hi => by rw [hf] at hi; cases hi
    rcases (mem_baseX hfit).mp hv with rfl | h
    · exact hx
    · exact h.2.1
  have hfit : e.actionable = true → FitsGrid e xj := fun _ hi => by rw [hf] at hi; cases hi
  have hsort : (e.feasX xj true).Pairwise (· < ·) := feasX_pairwise hg.2 hfit
  have hmem : ∀ v ∈ e.feasX xj true, v ∈ e.grid.vals ∧ DirOk d xj v := by
    intro v hv
    obtain ⟨hv1, hv2⟩ := mem_feasX_base.mp hv
    exact ⟨hbase v hv1, hv2 rfl d hdir⟩
  have hxm : xj ∈ e.feasX xj true := by
    refine mem_feasX_base.mpr ⟨(mem_baseX hfit).mpr (Or.inl rfl), ?_⟩
    intro _ f hf
    constructor <;> intro _ <;> exact le_refl _
  set V := e.feasX xj true with hV
  set P := t.evalFl r e.grid.isInt with hP
  obtain ⟨ac, xj', hac, -, -, -, -, -, -, hcosts⟩ := mkFeatFl_ok hfe
  dsimp only at hac
  have hlist : ∃ W : List K, ∃ F : K → K, (∀ v w, v ∈ W → w ∈ W → 0 ≤ F v) ∧ (W.map F).Pairwise (· ≤ ·) ∧
      ((orientFl r ext b.costType ((V.map fun v => v - xj).map r.fl) (V.map P)).1.zip
        (orientFl r ext b.costType ((V.map fun v => v - xj).map r.fl) (V.map P)).2).map (·.2) = W.map F := by
    have hsnd : ∀ (a c : List K), a.length = c.length → (a.zip c).map (·.2) = c := fun a c h => List.map_snd_zip h.ge
    rcases hdn with hneg | ⟨hpos, hcl⟩
    · -- downwards
      have hdirs : ∀ v ∈ V, v ∈ e.grid.vals ∧ v ≤ xj := fun v hv => ⟨(hmem v hv).1, (hmem v hv).2.2 hneg⟩
      have hlastx : V.getLastD 0 = xj := by
        refine le_antisymm ?_ (mem_le_getLastD (hsort.imp fun h => h.le) hxm 0)
        have hne : V ≠ [] := List.ne_nil_of_mem hxm
        rw [List.getLastD_eq_getLast?, List.getLast?_eq_some_getLast hne]
        exact (hdirs _ (List.getLast_mem hne)).2
      have hne : V ≠ [] := List.ne_nil_of_mem hxm
      have hcl : isClose (((V.map fun v => v - xj).map r.fl).getLastD 0) 0 = true := by
        have : ((V.map fun v => v - xj).map r.fl).getLastD 0 = 0 := by
          rw [List.getLastD_eq_getLast?, List.getLast?_map, List.getLast?_map, List.getLast?_eq_some_getLast hne]
          rw [List.getLastD_eq_getLast?, List.getLast?_eq_some_getLast hne] at hlastx
          simp only [Option.getD_some] at hlastx
          simp [hlastx, r.zero]
        rw [this]
        simp [isClose, isCloseTol]
      have hhead : (V.map P).reverse.headD 0 = P xj := by
        rw [← List.map_reverse]
        have : V.reverse.headD 0 = xj := by
          rw [← hlastx, List.headD_eq_head?_getD, List.head?_reverse, List.getLastD_eq_getLast?]
        cases hr : V.reverse with
        | nil => rw [List.reverse_eq_nil_iff] at hr; exact absurd hr hne
        | cons z zs => rw [hr] at this; simp only [List.headD_cons] at this; simp [this]
      have hcost : (orientFl r ext b.costType ((V.map fun v => v - xj).map r.fl) (V.map P)).2
          = V.reverse.map fun v => dnFl r ext b.costType (P xj) (P v) := by
        unfold orientFl
        rw [if_pos hcl]
        unfold costDnFl dnFl
        dsimp only
        rw [hhead, ← List.map_reverse]
        by_cases hc : b.costType = .loc
        · simp only [if_pos hc, List.map_map]; rfl
        · simp only [if_neg hc, List.map_map]; rfl
      refine ⟨V.reverse, fun v => dnFl r ext b.costType (P xj) (P v), ?_, ?_, ?_⟩
      · intro v w hv _
        have hv := hdirs v (List.mem_reverse.mp hv)
        exact ((C112_costs_partial hlog hu h1 hg hf hd h hone hx hv.1 hv.1).2 hv.2 (le_refl _)).1
      · rw [List.pairwise_map, List.pairwise_reverse]
        refine hsort.imp_of_mem ?_
        intro v w hv hw hvw
        exact ((C112_costs_partial hlog hu h1 hg hf hd h hone hx (hdirs w hw).1 (hdirs v hv).1).2 (hdirs w hw).2 hvw.le).2
      · rw [hsnd _ _ ?_, hcost]
        rw [hcost, (orientFl_fst r ext b.costType _ _).2]
        simp
    · -- upwards
      have hdirs : ∀ v ∈ V, v ∈ e.grid.vals ∧ xj ≤ v := fun v hv => ⟨(hmem v hv).1, (hmem v hv).2.1 hpos⟩
      have hhead : (V.map P).headD 0 = P xj := by
        cases hr : V with
        | nil => rw [hr] at hxm; cases hxm
        | cons z zs =>
          rw [hr] at hxm hsort
          have : z = xj := by
            refine le_antisymm ?_ (hdirs z (by rw [hr]; simp)).2
            rcases List.mem_cons.mp hxm with h | h
            · exact h.ge
            · exact ((List.pairwise_cons.mp hsort).1 _ h).le
          simp [this]
      have hcost : (orientFl r ext b.costType ((V.map fun v => v - xj).map r.fl) (V.map P)).2
          = V.map fun v => upFl r ext b.costType (P xj) (P v) := by
        unfold orientFl
        rw [if_neg (by rw [hcl]; exact Bool.false_ne_true)]
        unfold costUpFl upFl
        dsimp only
        rw [hhead]
        by_cases hc : b.costType = .loc
        · simp only [if_pos hc, List.map_map]; rfl
        · simp only [if_neg hc, List.map_map]; rfl
      refine ⟨V, fun v => upFl r ext b.costType (P xj) (P v), ?_, ?_, ?_⟩
      · intro v w hv _
        have hv := hdirs v hv
        exact ((C112_costs_partial hlog hu h1 hg hf hd h hone hx hv.1 hv.1).1 hv.2 (le_refl _)).1
      · rw [List.pairwise_map]
        refine hsort.imp_of_mem ?_
        intro v w hv hw hvw
        exact ((C112_costs_partial hlog hu h1 hg hf hd h hone hx (hdirs v hv).1 (hdirs w hw).1).1 (hdirs v hv).2 hvw.le).2
      · rw [hsnd _ _ ?_, hcost]
        rw [hcost, (orientFl_fst r ext b.costType _ _).2]
        simp
  obtain ⟨W, F, hF0, hFm, hEq⟩ := hlist
  have hsub : f.costs.Sublist (W.map F) := by
    rw [hcosts, ← hEq]
    exact (dropBugs_sublist hac).map _
  refine ⟨hFm.sublist hsub, ?_⟩
  intro c hc
  obtain ⟨v, hv, rfl⟩ := List.mem_map.mp (hsub.subset hc)
  exact hF0 v v hv hv

/-! ## Accuracy of percentiles at any value -/

/-- `z'` is `z` up to a factor `((1 + u) / (1 - u)) ^ k` in either direction. -/
def WithinFactor (r : Rounding K) (k : ℕ) (z z' : K) : Prop :=
  ((1 - r.u) / (1 + r.u)) ^ k * z ≤ z' ∧ z' ≤ ((1 + r.u) / (1 - r.u)) ^ k * z

theorem WithinFactor.refl (z : K) : WithinFactor r 0 z z := by constructor <;> simp

theorem factor_bounds (hu : r.u < 1) : 0 < (1 - r.u) / (1 + r.u) ∧ (1 - r.u) / (1 + r.u) ≤ 1 - r.u ∧
    (1 - r.u) / (1 + r.u) ≤ 1 ∧ 1 ≤ (1 + r.u) / (1 - r.u) ∧ 1 + r.u ≤ (1 + r.u) / (1 - r.u) := by
  have h0 := r.nonneg
  have h1 : 0 < 1 - r.u := by linarith
  have h2 : 0 < 1 + r.u := by linarith
  refine ⟨div_pos h1 h2, ?_, (div_le_one h2).mpr (by linarith), (one_le_div h1).mpr (by linarith), ?_⟩
  · exact div_le_self h1.le (by linarith)
  · rw [le_div_iff₀ h1]
    exact mul_le_of_le_one_right h2.le (by linarith)

theorem WithinFactor.mono (hu : r.u < 1) {k m : ℕ} (h : k ≤ m) {z z' : K} (hz : 0 ≤ z) (hw : WithinFactor r k z z') :
    WithinFactor r m z z' := by
  obtain ⟨b1, -, b3, b4, -⟩ := factor_bounds hu
  constructor
  · exact (mul_le_mul_of_nonneg_right (pow_le_pow_of_le_one b1.le b3 h) hz).trans hw.1
  · exact hw.2.trans (mul_le_mul_of_nonneg_right (pow_le_pow_right₀ b4 h) hz)

theorem WithinFactor.nonneg (hu : r.u < 1) {k : ℕ} {z z' : K} (hz : 0 ≤ z) (hw : WithinFactor r k z z') : 0 ≤ z' :=
  (mul_nonneg (pow_nonneg (factor_bounds hu).1.le k) hz).trans hw.1

theorem WithinFactor.add {k : ℕ} {z z' w w' : K} (h1 : WithinFactor r k z z') (h2 : WithinFactor r k w w') :
    WithinFactor r k (z + w) (z' + w') := by
  constructor
  · rw [mul_add]; exact add_le_add h1.1 h2.1
  · rw [mul_add]; exact add_le_add h1.2 h2.2

theorem WithinFactor.scale {k : ℕ} {z z' c : K} (hc : 0 ≤ c) (h : WithinFactor r k z z') : WithinFactor r k (c * z) (c * z') := by
  constructor
  · have := mul_le_mul_of_nonneg_left h.1 hc
    linarith
  · have := mul_le_mul_of_nonneg_left h.2 hc
    linarith

theorem WithinFactor.mul (hu : r.u < 1) {k m : ℕ} {z z' w w' : K} (hz : 0 ≤ z) (hw : 0 ≤ w) (h1 : WithinFactor r k z z')
    (h2 : WithinFactor r m w w') : WithinFactor r (k + m) (z * w) (z' * w') := by
  obtain ⟨b1, -, -, b4, -⟩ := factor_bounds hu
  have n1 := h1.nonneg hu hz
  have n2 := h2.nonneg hu hw
  constructor
  · calc ((1 - r.u) / (1 + r.u)) ^ (k + m) * (z * w)
          = (((1 - r.u) / (1 + r.u)) ^ k * z) * (((1 - r.u) / (1 + r.u)) ^ m * w) := by ring
      _ ≤ z' * w' := mul_le_mul h1.1 h2.1 (mul_nonneg (pow_nonneg b1.le _) hw) n1
  · calc z' * w' ≤ (((1 + r.u) / (1 - r.u)) ^ k * z) * (((1 + r.u) / (1 - r.u)) ^ m * w) :=
          mul_le_mul h1.2 h2.2 n2 (mul_nonneg (pow_nonneg (by linarith) _) hz)
      _ = ((1 + r.u) / (1 - r.u)) ^ (k + m) * (z * w) := by ring

theorem WithinFactor.trans (hu : r.u < 1) {k m : ℕ} {z z' z'' : K} (h1 : WithinFactor r k z z') (h2 : WithinFactor r m z' z'') :
    WithinFactor r (k + m) z z'' := by
  obtain ⟨b1, -, -, b4, -⟩ := factor_bounds hu
  constructor
  · have := mul_le_mul_of_nonneg_left h1.1 (pow_nonneg b1.le m)
    calc ((1 - r.u) / (1 + r.u)) ^ (k + m) * z = ((1 - r.u) / (1 + r.u)) ^ m * (((1 - r.u) / (1 + r.u)) ^ k * z) := by ring
      _ ≤ z'' := this.trans h2.1
  · have := mul_le_mul_of_nonneg_left h1.2 (pow_nonneg (zero_le_one.trans b4) m)
    calc z'' ≤ ((1 + r.u) / (1 - r.u)) ^ m * (((1 + r.u) / (1 - r.u)) ^ k * z) := h2.2.trans this
      _ = ((1 + r.u) / (1 - r.u)) ^ (k + m) * z := by ring

theorem WithinFactor.fl (hu : r.u < 1) {k : ℕ} {z z' : K} (hz : 0 ≤ z) (h : WithinFactor r k z z') : WithinFactor r (k + 1) z (r.fl z') := by
  refine h.trans hu ?_
  obtain ⟨b1, b2, -, b4, b5⟩ := factor_bounds hu
  have n := h.nonneg hu hz
  have hn := abs_le.mp (r.near z')
  rw [abs_of_nonneg n] at hn
  constructor
  · rw [pow_one]
    have := mul_le_mul_of_nonneg_right b2 n
    linarith [hn.1]
  · rw [pow_one]
    have := mul_le_mul_of_nonneg_right b5 n
    linarith [hn.2]

/-- A value inside a segment, as the program computes it. -/
theorem seg_within (hu : r.u < 1) {g0 g1 y0 y1 x : K} (hg : g0 < g1) (h0 : 0 ≤ y0) (h01 : y0 ≤ y1) (hx : g0 ≤ x) :
    WithinFactor r 5 (y0 + (y1 - y0) / (g1 - g0) * (x - g0))
      (r.fl (r.fl (r.fl (r.fl (y1 - y0) / r.fl (g1 - g0)) * r.fl (x - g0)) + y0)) := by
  have hu0 := r.nonneg
  have hl1 : 0 < 1 - r.u := by linarith
  have hl2 : 0 < 1 + r.u := by linarith
  have hD : 0 < g1 - g0 := sub_pos.mpr hg
  have hdy : 0 ≤ y1 - y0 := sub_nonneg.mpr h01
  have hD' : 0 < r.fl (g1 - g0) := (fl_pos_iff hu).mpr hD
  have wD := (WithinFl.refl (r := r) (g1 - g0)).fl hu hD.le
  have wA := (WithinFl.refl (r := r) (y1 - y0)).fl hu hdy
  obtain ⟨d1, d2⟩ := wD
  obtain ⟨a1, a2⟩ := wA
  rw [zero_add, pow_one] at d1 d2 a1 a2
  have hA0 : 0 ≤ r.fl (y1 - y0) := r.nonneg_of hdy
  have q1 : WithinFactor r 1 ((y1 - y0) / (g1 - g0)) (r.fl (y1 - y0) / r.fl (g1 - g0)) := by
    constructor
    · rw [pow_one, div_mul_div_comm, div_le_div_iff₀ (mul_pos hl2 hD) hD']
      exact mul_le_mul a1 d2 hD'.le hA0
    · rw [pow_one, div_mul_div_comm, div_le_div_iff₀ hD' (mul_pos hl1 hD)]
      exact mul_le_mul a2 d1 (mul_pos hl1 hD).le (mul_nonneg hl2.le hdy)
  have hq0 : 0 ≤ (y1 - y0) / (g1 - g0) := div_nonneg hdy hD.le
  have hx0 : 0 ≤ x - g0 := sub_nonneg.mpr hx
  have m1 := ((q1.fl hu hq0).mul hu hq0 hx0 ((WithinFactor.refl (r := r) (x - g0)).fl hu hx0)).fl hu (mul_nonneg hq0 hx0)
  have m2 := (m1.add ((WithinFactor.refl (r := r) y0).mono hu (Nat.zero_le _) h0)).fl hu (by
    have := mul_nonneg hq0 hx0
    linarith)
  rw [show y0 + (y1 - y0) / (g1 - g0) * (x - g0) = (y1 - y0) / (g1 - g0) * (x - g0) + y0 by ring]
  exact m2

theorem interpSeg_step {g0 g1 y0 y1 x : K} {gs ys : List K} (hg : (g0 :: g1 :: gs).Pairwise (· < ·)) (hl : gs.length = ys.length)
    (hx : g1 ≤ x) : interpSeg (g0 :: g1 :: gs) (y0 :: y1 :: ys) x = interpSeg (g1 :: gs) (y1 :: ys) x := by
  have hlt : g0 < g1 := (List.pairwise_cons.mp hg).1 g1 (by simp)
  rw [interpSeg]
  by_cases h2 : x ≤ g1
  · have hxe : x = g1 := le_antisymm h2 hx
    rw [if_pos h2, hxe, div_mul_cancel₀ _ (sub_pos.mpr hlt).ne']
    cases gs with
    | nil => cases ys <;> simp [interpSeg]
    | cons g2 gs =>
      cases ys with
      | nil => simp at hl
      | cons y2 ys =>
        rw [interpSeg, if_pos ((List.pairwise_cons.mp hg.of_cons).1 g2 (by simp)).le]
        ring
  · rw [if_neg h2]

theorem interpFl_within (hu : r.u < 1) {gs ys : List K} (hg : gs.Pairwise (· < ·)) (hl : gs.length = ys.length)
    (hys : ys.Pairwise (· ≤ ·)) (hy : ∀ y ∈ ys, 0 ≤ y) {x : K} (hx : gs.headD 0 ≤ x) :
    WithinFactor r 5 (interpSeg gs ys x) (interpNpFl r gs ys x) ∧ WithinFactor r 5 (interpSeg gs ys x) (interpSciFl r gs ys x) := by
  have triv : ∀ y : K, 0 ≤ y → WithinFactor r 5 y y := fun y h => (WithinFactor.refl y).mono hu (Nat.zero_le _) h
  induction gs generalizing ys with
  | nil => cases ys with
    | nil => exact ⟨triv 0 (le_refl _), triv 0 (le_refl _)⟩
    | cons _ _ => simp at hl
  | cons g0 gs ih =>
    cases ys with
    | nil => simp at hl
    | cons y0 ys =>
      have hy0 : 0 ≤ y0 := hy y0 (by simp)
      cases gs with
      | nil => cases ys with
        | nil => exact ⟨triv y0 hy0, triv y0 hy0⟩
        | cons _ _ => simp at hl
      | cons g1 gs =>
        cases ys with
        | nil => simp at hl
        | cons y1 ys =>
          have hlt : g0 < g1 := (List.pairwise_cons.mp hg).1 g1 (by simp)
          have h01 : y0 ≤ y1 := (List.pairwise_cons.mp hys).1 y1 (by simp)
          have hl' : gs.length = ys.length := by simpa using hl
          have hih : g1 ≤ x → _ := fun h : g1 ≤ x =>
            ih hg.of_cons (by simpa using hl) hys.of_cons (fun y hm => hy y (List.mem_cons_of_mem _ hm)) h
          have hseg := seg_within hu hlt hy0 h01 (x := x) hx
          constructor
          · by_cases h1 : x < g1
            · rw [interpNpFl, if_pos h1, interpSeg, if_pos h1.le]
              exact hseg
            · rw [interpNpFl, if_neg h1, interpSeg_step hg hl' (not_lt.mp h1)]
              exact (hih (not_lt.mp h1)).1
          · by_cases h1 : x ≤ g1
            · rw [interpSciFl, if_pos h1, interpSeg, if_pos h1]
              exact hseg
            · rw [interpSciFl, if_neg h1, interpSeg_step hg hl' (not_le.mp h1).le]
              exact (hih (not_le.mp h1).le).2

theorem interpSeg_within (hu : r.u < 1) {k : ℕ} {gs ys ys' : List K} (hg : gs.Pairwise (· < ·))
    (hy : List.Forall₂ (WithinFactor r k) ys ys') {x : K} (hx : gs.headD 0 ≤ x) :
    WithinFactor r k (interpSeg gs ys x) (interpSeg gs ys' x) := by
  have hzero : WithinFactor r k (0 : K) 0 := by constructor <;> simp
  induction gs generalizing ys ys' with
  | nil => cases hy with
    | nil => exact hzero
    | cons h _ => exact h
  | cons g0 gs ih =>
    cases hy with
    | nil => cases gs <;> exact hzero
    | cons h0 hy =>
      cases gs with
      | nil => exact h0
      | cons g1 gs =>
        cases hy with
        | nil => exact h0
        | cons h1 hy =>
          have hlt : g0 < g1 := (List.pairwise_cons.mp hg).1 g1 (by simp)
          have hD : 0 < g1 - g0 := sub_pos.mpr hlt
          rw [interpSeg, interpSeg]
          by_cases hx1 : x ≤ g1
          · rw [if_pos hx1, if_pos hx1]
            have conv : ∀ a b : K, a + (b - a) / (g1 - g0) * (x - g0) = (1 - (x - g0) / (g1 - g0)) * a + (x - g0) / (g1 - g0) * b := by
              intro a b; field_simp; ring
            rw [conv, conv]
            have l0 : 0 ≤ (x - g0) / (g1 - g0) := div_nonneg (sub_nonneg.mpr hx) hD.le
            have l1 : (x - g0) / (g1 - g0) ≤ 1 := (div_le_one hD).mpr (by linarith)
            exact (h0.scale (by linarith)).add (h1.scale l0)
          · rw [if_neg hx1, if_neg hx1]
            exact ih hg.of_cons (.cons h1 hy) (not_le.mp hx1).le

/-- **C112** (accuracy at any value): the percentile that the program computes for any value, inside or outside the grid, is the exact
percentile up to a factor that depends only on the number of grid values: at most `((1 + u) / (1 - u)) ^ (n + 8)`. -/
theorem C112_value (hu : r.u < 1) (h1 : r.fl 1 = 1) (hg : e.GridOk) (hd : DensityNonneg ext e) {a b : K} (ha : 0 < a)
    (h : e.newTable ext a b = .ok t) (h' : e.newTableFl r ext a b = .ok t') (x : K) :
    ((1 - r.u) / (1 + r.u)) ^ (e.grid.vals.length + 8) * t.eval x ≤ t'.evalFl r e.grid.isInt x ∧
    t'.evalFl r e.grid.isInt x ≤ ((1 + r.u) / (1 - r.u)) ^ (e.grid.vals.length + 8) * t.eval x := by
  show WithinFactor r (e.grid.vals.length + 8) (t.eval x) (t'.evalFl r e.grid.isInt x)
  have ht' := TableFl.of hu h1 hd ha h'
  have hys : List.Forall₂ (WithinFactor r (e.grid.vals.length + 3)) t.ys t'.ys := C112_error hu hd ha h h'
  obtain ⟨pdf, hp, ⟨-, -⟩, ⟨hb0, hb1⟩, -, e1⟩ := newTable_spec h
  have hxs : t.xs = e.grid.vals := by rw [e1]
  have hlo : t.lo = a := by rw [e1]
  have hhi : t.hi = 1 - b := by rw [e1]
  have hlo' : t'.lo = a := by obtain ⟨_, -, -, -, -, e2⟩ := newTableFl_spec h'; rw [e2]
  have hhi' : t'.hi = r.fl (1 - b) := by obtain ⟨_, -, -, -, -, e2⟩ := newTableFl_spec h'; rw [e2]
  have hsort : e.grid.vals.Pairwise (· < ·) := hg.2
  unfold Table.eval Table.evalFl
  rw [hxs, ht'.xs, hlo, hhi, hlo', hhi']
  by_cases c1 : x < e.grid.vals.headD 0
  · rw [if_pos c1, if_pos c1]
    exact (WithinFactor.refl a).mono hu (Nat.zero_le _) ha.le
  · rw [if_neg c1, if_neg c1]
    by_cases c2 : e.grid.vals.getLastD 0 < x
    · rw [if_pos c2, if_pos c2]
      exact ((WithinFactor.refl (1 - b)).fl hu (by linarith)).mono hu (by omega) (by linarith)
    · rw [if_neg c2, if_neg c2]
      have w1 := interpSeg_within hu hsort hys (not_lt.mp c1)
      have w2 := interpFl_within hu hsort (ht'.xs ▸ ht'.len) ht'.mono (fun y hy => (ht'.range y hy).1.le) (not_lt.mp c1)
      by_cases hi : e.grid.isInt = true
      · rw [if_pos hi]; exact w1.trans hu w2.2
      · rw [if_neg hi]; exact w1.trans hu w2.1

/-- **C112** (order between any values): on the grid's range the computed percentile of a larger value is never below that of a smaller value by more than
the factor `((1 - u) / (1 + u)) ^ (2 n + 16)`. -/
theorem C112_order_partial (hu : r.u < 1) (h1 : r.fl 1 = 1) (hg : e.GridOk) (hpos : ∀ pdf, ext.kde e.values = .ok pdf → ∀ v, 0 < pdf v)
    (h : e.newTable ext (r.fl pbuf) (r.fl pbuf) = .ok t) (h' : e.freshTableFl r ext = .ok t') {v w : K}
    (hv : e.grid.vals.headD 0 ≤ v) (hvw : v ≤ w) (hw : w ≤ e.grid.vals.getLastD 0) :
    ((1 - r.u) / (1 + r.u)) ^ (2 * e.grid.vals.length + 16) * t'.evalFl r e.grid.isInt v ≤ t'.evalFl r e.grid.isInt w := by
  have hd : DensityNonneg ext e := fun pdf hp v _ => (hpos pdf hp v).le
  have hb := pbufFl_pos hu
  obtain ⟨v1, v2⟩ := C112_value hu h1 hg hd hb h h' v
  obtain ⟨w1, w2⟩ := C112_value hu h1 hg hd hb h h' w
  have hmono : t.eval v ≤ t.eval w := by
    rcases hvw.lt_or_eq with hlt | he
    · have hgood : t.ys.Pairwise (· < ·) ∧ t.xs = e.grid.vals ∧ t.ys.length = t.xs.length := by
        obtain ⟨pdf, hp, -, -, -, e1⟩ := newTable_spec h
        obtain ⟨c1, c2, c3⟩ := cumsumFrom_spec (l := e.grid.vals.map pdf) (fun p hm => by
          obtain ⟨v, -, rfl⟩ := List.mem_map.mp hm
          exact hpos pdf hp v) 0
        have hl0 : 0 ≤ (cumsumFrom 0 (e.grid.vals.map pdf)).getLastD 0 := by
          cases hc : cumsumFrom 0 (e.grid.vals.map pdf) with
          | nil => exact le_refl _
          | cons c cs => rw [hc] at c2 c3; exact ((c2 c (by simp)).trans_le (c3 c (by simp))).le
        rw [e1]
        refine ⟨?_, rfl, by simp [cumsum, cumsumFrom_length]⟩
        rw [List.pairwise_map]
        refine c1.imp ?_
        intro a b hab
        exact div_lt_div_of_pos_right (by linarith) (by unfold cumsum; linarith)
      obtain ⟨g1, g2, g3⟩ := hgood
      have hlt' := hlt
      unfold Table.eval
      rw [g2, if_neg (not_lt.mpr hv), if_neg (not_lt.mpr (hvw.trans hw)), if_neg (not_lt.mpr (hv.trans hvw)), if_neg (not_lt.mpr hw)]
      have g2' := g3
      rw [g2] at g2'
      cases hx : e.grid.vals with
      | nil => exact absurd hx hg.1
      | cons x0 xs =>
        rw [hx] at g2' hv hw
        have hsort := hg.2
        rw [hx] at hsort
        cases hyy : t.ys with
        | nil => rw [hyy] at g2'; simp at g2'
        | cons y0 ys =>
          rw [hyy] at g2' g1
          simp only [List.getLastD_cons, List.headD_cons] at hv hw
          exact (interpSeg_strict hsort g1 (by simpa using g2'.symm) hv hlt hw).le
    · rw [he]
  obtain ⟨b1, -, -, -, -⟩ := factor_bounds hu
  set n := e.grid.vals.length
  have hα : 0 < 1 - r.u := by linarith
  have hβ : 0 < 1 + r.u := by linarith [r.nonneg]
  have hinv : ((1 - r.u) / (1 + r.u)) ^ (n + 8) * ((1 + r.u) / (1 - r.u)) ^ (n + 8) = 1 := by
    rw [← mul_pow, div_mul_div_comm, mul_comm (1 - r.u), div_self (mul_pos hβ hα).ne', one_pow]
  calc ((1 - r.u) / (1 + r.u)) ^ (2 * n + 16) * t'.evalFl r e.grid.isInt v
      = ((1 - r.u) / (1 + r.u)) ^ (n + 8) * (((1 - r.u) / (1 + r.u)) ^ (n + 8) * t'.evalFl r e.grid.isInt v) := by ring
    _ ≤ ((1 - r.u) / (1 + r.u)) ^ (n + 8) * (((1 - r.u) / (1 + r.u)) ^ (n + 8) * (((1 + r.u) / (1 - r.u)) ^ (n + 8) * t.eval v)) :=
        mul_le_mul_of_nonneg_left (mul_le_mul_of_nonneg_left v2 (pow_nonneg b1.le _)) (pow_nonneg b1.le _)
    _ = ((1 - r.u) / (1 + r.u)) ^ (n + 8) * t.eval v := by
        rw [← mul_assoc (((1 - r.u) / (1 + r.u)) ^ (n + 8)) (((1 + r.u) / (1 - r.u)) ^ (n + 8)), hinv, one_mul]
    _ ≤ ((1 - r.u) / (1 + r.u)) ^ (n + 8) * t.eval w := mul_le_mul_of_nonneg_left hmono (pow_nonneg b1.le _)
    _ ≤ t'.evalFl r e.grid.isInt w := w1

end Recourse
