import Verif.Lemmas.Elem

/-!
# Percentile tables
-/

set_option linter.unusedSectionVars false

namespace Recourse

variable {K : Type} [Field K] [LinearOrder K] [IsStrictOrderedRing K] [FloorRing K]

theorem seg_bounds {g0 g1 y0 y1 x : K} (hg : g0 < g1) (hy : y0 < y1) (h0 : g0 ≤ x) (h1 : x ≤ g1) :
    y0 ≤ y0 + (y1 - y0) / (g1 - g0) * (x - g0) ∧ y0 + (y1 - y0) / (g1 - g0) * (x - g0) ≤ y1 := by
  have hd : 0 < g1 - g0 := sub_pos.mpr hg
  have hs : 0 < (y1 - y0) / (g1 - g0) := div_pos (sub_pos.mpr hy) hd
  constructor
  · have := mul_nonneg hs.le (sub_nonneg.mpr h0); linarith
  · have h2 : (y1 - y0) / (g1 - g0) * (x - g0) ≤ (y1 - y0) / (g1 - g0) * (g1 - g0) :=
      mul_le_mul_of_nonneg_left (by linarith) hs.le
    rw [div_mul_cancel₀ _ hd.ne'] at h2
    linarith

theorem seg_strict {g0 g1 y0 y1 a b : K} (hg : g0 < g1) (hy : y0 < y1) (h : a < b) :
    y0 + (y1 - y0) / (g1 - g0) * (a - g0) < y0 + (y1 - y0) / (g1 - g0) * (b - g0) := by
  have hs : 0 < (y1 - y0) / (g1 - g0) := div_pos (sub_pos.mpr hy) (sub_pos.mpr hg)
  have := mul_lt_mul_of_pos_left (by linarith : a - g0 < b - g0) hs
  linarith

theorem le_getLastD {g0 : K} {gs : List K} (h : (g0 :: gs).Pairwise (· < ·)) : g0 ≤ gs.getLastD g0 := by
  induction gs generalizing g0 with
  | nil => simp
  | cons g1 gs ih =>
    rw [List.getLastD_cons]
    have h1 := ih h.of_cons
    have : g0 < g1 := (List.pairwise_cons.mp h).1 g1 (by simp)
    exact this.le.trans h1

theorem interpSeg_bounds {g0 y0 x : K} {gs ys : List K} (hg : (g0 :: gs).Pairwise (· < ·))
    (hy : (y0 :: ys).Pairwise (· < ·)) (hl : gs.length = ys.length) (h0 : g0 ≤ x)
    (h1 : x ≤ gs.getLastD g0) :
    y0 ≤ interpSeg (g0 :: gs) (y0 :: ys) x ∧ interpSeg (g0 :: gs) (y0 :: ys) x ≤ ys.getLastD y0 := by
  induction gs generalizing g0 y0 ys with
  | nil =>
    cases ys with
    | nil => simp [interpSeg]
    | cons _ _ => simp at hl
  | cons g1 gs ih =>
    cases ys with
    | nil => simp at hl
    | cons y1 ys =>
      have hgg : g0 < g1 := (List.pairwise_cons.mp hg).1 g1 (by simp)
      have hyy : y0 < y1 := (List.pairwise_cons.mp hy).1 y1 (by simp)
      rw [List.getLastD_cons] at h1 ⊢
      unfold interpSeg
      split_ifs with hx
      · have := seg_bounds hgg hyy h0 hx
        exact ⟨this.1, this.2.trans (le_getLastD hy.of_cons)⟩
      · have := ih hg.of_cons hy.of_cons (by simpa using hl) (not_le.mp hx).le h1
        exact ⟨hyy.le.trans this.1, this.2⟩

theorem interpSeg_strict {g0 y0 a b : K} {gs ys : List K} (hg : (g0 :: gs).Pairwise (· < ·))
    (hy : (y0 :: ys).Pairwise (· < ·)) (hl : gs.length = ys.length) (h0 : g0 ≤ a) (hab : a < b)
    (h1 : b ≤ gs.getLastD g0) :
    interpSeg (g0 :: gs) (y0 :: ys) a < interpSeg (g0 :: gs) (y0 :: ys) b := by
  induction gs generalizing g0 y0 ys with
  | nil =>
    simp at h1
    exact absurd (h0.trans_lt hab) (not_lt.mpr h1)
  | cons g1 gs ih =>
    cases ys with
    | nil => simp at hl
    | cons y1 ys =>
      have hgg : g0 < g1 := (List.pairwise_cons.mp hg).1 g1 (by simp)
      have hyy : y0 < y1 := (List.pairwise_cons.mp hy).1 y1 (by simp)
      rw [List.getLastD_cons] at h1
      rw [interpSeg, interpSeg]
      split_ifs with ha hb hb
      · exact seg_strict hgg hyy hab
      · have hb' := not_le.mp hb
        -- right part is above y1, strictly unless b = g1
        have h2 := (seg_bounds hgg hyy h0 ha).2
        have h3 : y1 < interpSeg (g1 :: gs) (y1 :: ys) b := by
          have e1 : interpSeg (g1 :: gs) (y1 :: ys) g1 = y1 := by
            cases gs with
            | nil => cases ys with
              | nil => simp [interpSeg]
              | cons _ _ => simp at hl
            | cons g2 gs => cases ys with
              | nil => simp at hl
              | cons y2 ys =>
                rw [interpSeg, if_pos ((List.pairwise_cons.mp hg.of_cons).1 g2 (by simp)).le]
                simp
          have key : interpSeg (g1 :: gs) (y1 :: ys) g1 < interpSeg (g1 :: gs) (y1 :: ys) b := by
            exact interpSeg_from gs ys g1 y1 b hg.of_cons hy.of_cons (by simpa using hl) hb' h1
          rwa [e1] at key
        exact h2.trans_lt h3
      · exact absurd (hab.le.trans hb) ha
      · exact ih hg.of_cons hy.of_cons (by simpa using hl) (not_le.mp ha).le h1
where
  interpSeg_from (gs ys : List K) (g1 y1 b : K) (hg : (g1 :: gs).Pairwise (· < ·))
      (hy : (y1 :: ys).Pairwise (· < ·)) (hl : gs.length = ys.length) (hb : g1 < b)
      (h1 : b ≤ gs.getLastD g1) :
      interpSeg (g1 :: gs) (y1 :: ys) g1 < interpSeg (g1 :: gs) (y1 :: ys) b := by
    cases gs with
    | nil => simp at h1; exact absurd hb (not_lt.mpr h1)
    | cons g2 gs =>
      cases ys with
      | nil => simp at hl
      | cons y2 ys =>
        have hgg : g1 < g2 := (List.pairwise_cons.mp hg).1 g2 (by simp)
        have hyy : y1 < y2 := (List.pairwise_cons.mp hy).1 y2 (by simp)
        rw [interpSeg, interpSeg, if_pos hgg.le]
        split_ifs with hb'
        · exact seg_strict hgg hyy hb
        · rw [List.getLastD_cons] at h1
          have := (interpSeg_bounds hg.of_cons hy.of_cons (by simpa using hl) (not_le.mp hb').le h1).1
          have h2 : y1 + (y2 - y1) / (g2 - g1) * (g1 - g1) = y1 := by ring
          rw [h2]
          exact hyy.trans_le this

theorem cumsumFrom_length (acc : K) (l : List K) : (cumsumFrom acc l).length = l.length := by
  induction l generalizing acc with
  | nil => rfl
  | cons p t ih => simp [cumsumFrom, ih]

theorem cumsumFrom_spec {l : List K} (hl : ∀ p ∈ l, 0 < p) (acc : K) :
    (cumsumFrom acc l).Pairwise (· < ·) ∧ (∀ c ∈ cumsumFrom acc l, acc < c) ∧
      ∀ c ∈ cumsumFrom acc l, c ≤ (cumsumFrom acc l).getLastD 0 := by
  induction l generalizing acc with
  | nil => simp [cumsumFrom]
  | cons p t ih =>
    have hp : 0 < p := hl p (by simp)
    obtain ⟨i1, i2, i3⟩ := ih (fun q hq => hl q (List.mem_cons_of_mem _ hq)) (acc + p)
    simp only [cumsumFrom]
    refine ⟨List.pairwise_cons.mpr ⟨fun c hc => i2 c hc, i1⟩, ?_, ?_⟩
    · intro c hc
      rcases List.mem_cons.mp hc with rfl | hc
      · linarith
      · have := i2 c hc; linarith
    · have hlast : ((acc + p) :: cumsumFrom (acc + p) t).getLastD 0
          = (cumsumFrom (acc + p) t).getLastD (acc + p) := List.getLastD_cons ..
      rw [hlast]
      cases ht : cumsumFrom (acc + p) t with
      | nil => simp
      | cons q qs =>
        rw [ht] at i2 i3
        intro c hc
        have h3 : (q :: qs).getLastD (acc + p) = (q :: qs).getLastD 0 := by rw [List.getLastD_cons, List.getLastD_cons]
        rw [h3]
        rcases List.mem_cons.mp hc with rfl | hc
        · exact ((i2 q (by simp)).trans_le (i3 q (by simp))).le
        · exact i3 c hc

/-- The tables that `update_interpolator` produces: a strictly increasing grid with strictly increasing
scores strictly between 0 and 1. -/
structure Table.Good (t : Table K) : Prop where
  xs : t.xs.Pairwise (· < ·)
  ys : t.ys.Pairwise (· < ·)
  len : t.xs.length = t.ys.length
  ne : t.xs ≠ []
  range : ∀ y ∈ t.ys, 0 < y ∧ y < 1
  lo : 0 < t.lo ∧ t.lo < 1
  hi : 0 < t.hi ∧ t.hi < 1

theorem pbuf_pos : (0 : K) < pbuf := by unfold pbuf; positivity

theorem freshTable_good {ext : Ext K} {e : Elem K} {t : Table K} (hg : e.GridOk)
    (hpos : ∀ pdf, ext.kde e.values = .ok pdf → ∀ v, 0 < pdf v) (h : e.freshTable ext = .ok t) :
    t.Good ∧ t.xs = e.grid.vals := by
  unfold Elem.freshTable Elem.newTable at h
  obtain ⟨_, -, h⟩ := bind_ok_iff.mp h
  obtain ⟨_, -, h⟩ := bind_ok_iff.mp h
  obtain ⟨_, -, h⟩ := bind_ok_iff.mp h
  obtain ⟨pdf, hpdf, h⟩ := bind_ok_iff.mp h
  cases h
  have hb1 : (pbuf : K) < 1 := by
    unfold pbuf
    rw [div_lt_one (by positivity)]
    norm_num
  have hp : ∀ p ∈ e.grid.vals.map pdf, 0 < p := by
    intro p hp
    obtain ⟨v, -, rfl⟩ := List.mem_map.mp hp
    exact hpos pdf hpdf v
  obtain ⟨c1, c2, c3⟩ := cumsumFrom_spec hp 0
  have hb := pbuf_pos (K := K)
  have hlen : (cumsum (e.grid.vals.map pdf)).length = e.grid.vals.length := by
    simp [cumsum, cumsumFrom_length]
  have hne : cumsum (e.grid.vals.map pdf) ≠ [] := by
    intro h0
    rw [h0] at hlen
    exact hg.1 (List.length_eq_zero_iff.mp hlen.symm)
  have htot : 0 < (cumsum (e.grid.vals.map pdf)).getLastD 0 + pbuf + pbuf := by
    obtain ⟨c, hc⟩ := List.exists_mem_of_ne_nil _ hne
    have h1 : (0 : K) < c := c2 c hc
    have h2 : c ≤ _ := c3 c hc
    have : 0 < (cumsum (e.grid.vals.map pdf)).getLastD 0 := h1.trans_le h2
    linarith
  refine ⟨⟨hg.2, ?_, by simp [hlen], hg.1, ?_, ⟨hb, hb1⟩, by constructor <;> simp only <;> linarith⟩, rfl⟩
  · rw [List.pairwise_map]
    refine List.Pairwise.imp ?_ c1
    intro a b hab
    exact div_lt_div_of_pos_right (by linarith) htot
  · intro y hy
    obtain ⟨c, hc, rfl⟩ := List.mem_map.mp hy
    have h1 : (0 : K) < c := c2 c hc
    have h2 : c ≤ (cumsum (e.grid.vals.map pdf)).getLastD 0 := c3 c hc
    refine ⟨div_pos (by linarith) htot, (div_lt_one htot).mpr (by linarith)⟩

theorem Table.Good.eval_strict {t : Table K} (ht : t.Good) {a b : K} (h0 : t.xs.headD 0 ≤ a)
    (hab : a < b) (h1 : b ≤ t.xs.getLastD 0) : t.eval a < t.eval b := by
  obtain ⟨xs, ys, lo, hi⟩ := t
  obtain ⟨h2, h3, h4, h5, -, -, -⟩ := ht
  cases xs with
  | nil => exact absurd rfl h5
  | cons g0 gs =>
    cases ys with
    | nil => simp at h4
    | cons y0 ys =>
      simp only [List.headD_cons, List.getLastD_cons] at *
      unfold Table.eval
      simp only [List.headD_cons, List.getLastD_cons]
      rw [if_neg (not_lt.mpr h0), if_neg (not_lt.mpr (hab.le.trans h1)),
        if_neg (not_lt.mpr (h0.trans hab.le)), if_neg (not_lt.mpr h1)]
      exact interpSeg_strict h2 h3 (by simpa using h4) h0 hab h1

theorem Table.Good.eval_range {t : Table K} (ht : t.Good) (a : K) : 0 < t.eval a ∧ t.eval a < 1 := by
  obtain ⟨xs, ys, lo, hi⟩ := t
  obtain ⟨h2, h3, h4, h5, h6, h7, h8⟩ := ht
  cases xs with
  | nil => exact absurd rfl h5
  | cons g0 gs =>
    cases ys with
    | nil => simp at h4
    | cons y0 ys =>
      simp only at *
      unfold Table.eval
      simp only [List.headD_cons, List.getLastD_cons]
      split_ifs with c1 c2
      · exact h7
      · exact h8
      · have := interpSeg_bounds h2 h3 (by simpa using h4) (not_lt.mp c1) (not_lt.mp c2)
        have hm : ys.getLastD y0 ∈ (y0 :: ys) := by
          cases ys with
          | nil => simp
          | cons y1 ys => rw [List.getLastD_cons]; exact List.mem_cons_of_mem _ (by
              have := List.getLast_mem (l := y1 :: ys) (by simp)
              rwa [List.getLast_eq_getLastD] at this)
        exact ⟨(h6 y0 (by simp)).1.trans_le this.1, this.2.trans_lt (h6 _ hm).2⟩

end Recourse
