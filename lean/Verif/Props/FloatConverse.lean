import Verif.Props.FloatBuild

/-!
# C105, the converse: recourse with a margin is found
-/

set_option linter.unusedSectionVars false

namespace Recourse

variable {K : Type} [Field K] [LinearOrder K] [IsStrictOrderedRing K] [FloorRing K]

variable {ext : Ext K} {o : Oracle K} {b0 b1 b b' : Builder K} {x : List K} {i : Info K} {r : Rounding K}

/-! ## Specification -/

/-- Grids and percentiles are in order at `x` and leave room for rounding errors: every actionable feature has a value its grid can hold, grid values other than the point
differ from it by more than numpy's tolerance `1e-8` even after rounding, percentile scores are strictly increasing on the grid values and the point, and, when
logarithms are taken, lie in `[0, 1)` and differ by more than `3u`. -/
structure RoomToRound (ext : Ext K) (r : Rounding K) (b : Builder K) (x : List K) : Prop where
  fits : ∀ (j : ℕ) (e : Elem K) (xj : K), b.aset.elems[j]? = some e → x[j]? = some xj → e.actionable = true → FitsGrid e xj
  apart : ∀ (j : ℕ) (e : Elem K) (xj v : K), b.aset.elems[j]? = some e → x[j]? = some xj →
    e.actionable = true → v ∈ e.grid.vals → v ≠ xj → 1 / 10 ^ 8 < (1 - r.u) * |v - xj|
  pct : ∀ (j : ℕ) (e : Elem K) (xj u v p q : K), b.aset.elems[j]? = some e → x[j]? = some xj →
    e.actionable = true → (u = xj ∨ u ∈ e.grid.vals) → (v = xj ∨ v ∈ e.grid.vals) → u < v →
    e.percentile ext u = .ok p → e.percentile ext v = .ok q →
    p < q ∧ (b.costType = .loc → 0 ≤ p ∧ q < 1 ∧ 3 * r.u < q - p)

/-- The action `a` is recourse with a score that is at least `μ` beyond 0: it is permitted, respects the subset limits, changes at most `hi` features. -/
structure ClearRecourse (μ : K) (A : ActionSet K) (w : List K) (t : K) (x a : List K) (hi : ℕ) : Prop where
  permitted : PermittedAction A x a
  limits : RespectsLimits A x a
  max : numChanged a ≤ hi
  score : ReachesScoreUpTo (-μ) A.yDesired w t x a

/-! ## Rounded costs -/

theorem fl_pos (hu : r.u < 1) {z : K} : 0 < r.fl z ↔ 0 < z := by
  rw [← sgn_eq_one, sgn_fl hu, sgn_eq_one]

theorem gap_quotient (hu : r.u < 1) {p q : K} (hp : 0 ≤ p) (hq : q < 1) (hpq : p < q) (hg : 3 * r.u < q - p) :
    1 < r.fl (r.fl (1 - p) / r.fl (1 - q)) := by
  have h1 := (abs_le.mp (r.near (1 - p))).1
  have h2 := (abs_le.mp (r.near (1 - q))).2
  rw [abs_of_pos (by linarith : (0 : K) < 1 - p)] at h1
  rw [abs_of_pos (by linarith : (0 : K) < 1 - q)] at h2
  have hq0 : 0 < r.fl (1 - q) := (fl_pos hu).mpr (by linarith)
  have hp0 : 0 < r.fl (1 - p) := (fl_pos hu).mpr (by linarith)
  have hu0 := r.nonneg
  set Q := r.fl (1 - p) / r.fl (1 - q) with hQ
  have hQ0 : 0 < Q := div_pos hp0 hq0
  have h3 := (abs_le.mp (r.near Q)).1
  rw [abs_of_pos hQ0] at h3
  have h4 : 1 < (1 - r.u) * Q := by
    rw [hQ, mul_div_assoc', one_lt_div hq0]
    have a1 : (1 - r.u) * (1 - p) ≤ r.fl (1 - p) := by linarith
    have a2 : r.fl (1 - q) ≤ (1 + r.u) * (1 - q) := by linarith
    have a3 := mul_le_mul_of_nonneg_left a1 (by linarith : (0 : K) ≤ 1 - r.u)
    have b1 : 0 ≤ r.u * p := mul_nonneg hu0 hp
    have b2 : 0 ≤ r.u * q := mul_nonneg hu0 (by linarith)
    have b3 : 0 ≤ r.u * r.u * (1 - p) := mul_nonneg (mul_nonneg hu0 hu0) (by linarith)
    nlinarith
  linarith

theorem upFl_pos (hu : r.u < 1) (hlog : LogOk ext) {ct : CostType} {p q : K} (hpq : p < q)
    (hl : ct = .loc → 0 ≤ p ∧ q < 1 ∧ 3 * r.u < q - p) : 0 < upFl r ext ct p q := by
  unfold upFl
  by_cases hc : ct = .loc
  · rw [if_pos hc]
    obtain ⟨h1, h2, h3⟩ := hl hc
    have := gap_quotient hu h1 h2 hpq h3
    rw [fl_pos hu, hlog _ (by linarith)]
    exact this
  · rw [if_neg hc, fl_pos hu]
    linarith

theorem dnFl_pos (hu : r.u < 1) (hlog : LogOk ext) {ct : CostType} {p q : K} (hpq : q < p)
    (hl : ct = .loc → 0 ≤ q ∧ p < 1 ∧ 3 * r.u < p - q) : 0 < dnFl r ext ct p q := by
  unfold dnFl
  by_cases hc : ct = .loc
  · rw [if_pos hc]
    obtain ⟨h1, h2, h3⟩ := hl hc
    have := gap_quotient hu h1 h2 hpq h3
    rw [fl_pos hu, hlog _ (by linarith)]
    exact this
  · rw [if_neg hc, fl_pos hu]
    linarith

/-! ## The exchange -/

/-- The part of an action that helps, as a choice of the rounded program. -/
theorem exchangeFl (hso : SetOrderOk ext) (hu : r.u < 1) (hlog : LogOk ext) (hb : AnyGrids b)
    (hy : b.aset.yDesired = 1 ∨ b.aset.yDesired = -1) {feats : List (Feat K)} (h : b.buildInfoFl r ext x = .ok feats)
    (hroom : RoomToRound ext r b x) {a : List K} (ha : PermittedAction b.aset x a)
    (hag : ∀ (j : ℕ) (e : Elem K) (w v : K), b.aset.elems[j]? = some e → b.coefs[j]? = some w → a[j]? = some v →
      0 < (b.aset.yDesired : K) * (w * v) → (∃ n, b.aset.names[j]? = some n ∧ Listed b.aset n) ∨
        AgreesWith b.aset.yDesired w e) :
    ∃ (κ : ℕ → ℕ) (X V : Feat K → K), Choice feats κ ∧
      (∀ f ∈ feats, (∃ e, FeatSpecFl ext r b x f e (X f) ∧ Permitted e (X f) (V f)) ∧ f.act κ = r.fl (V f - X f)) ∧
      ∀ (j : ℕ) (n : String) (u v w : K), b.aset.names[j]? = some n →
        (valVec b.coefs.length feats fun f => V f - X f)[j]? = some u → a[j]? = some v → b.coefs[j]? = some w →
        ((Listed b.aset n ∨ 0 < (b.aset.yDesired : K) * (w * v)) → u = v) ∧
        (¬ (Listed b.aset n ∨ 0 < (b.aset.yDesired : K) * (w * v)) → u = 0) := by
  obtain ⟨-, hxl, hspec, hcov⟩ := buildInfoFl_spec hso hu hb h
  have hok := buildInfoFl_ok hso hu hb h
  obtain ⟨hal, hperm⟩ := ha
  set y : K := (b.aset.yDesired : K) with hydef
  have hn : b.coefs.length = x.length := by rw [hb.coefs, hxl]
  have helpful : ∀ (j : ℕ) (n : String) (e : Elem K) (xj aj w : K), b.aset.names[j]? = some n →
      b.aset.elems[j]? = some e → x[j]? = some xj →
      a[j]? = some aj → b.coefs[j]? = some w → (Listed b.aset n ∨ 0 < y * (w * aj)) → aj ≠ 0 →
      e.actionable = true ∧ (e.compatible ≠ some false ∨ n ∈ b.aset.cons.flatNames) ∧ xj + aj ∈ e.grid.vals ∧
      xj + aj ≠ xj ∧ Permitted e xj (xj + aj) ∧ KeepFlip e (decide (n ∉ b.aset.cons.flatNames)) xj (xj + aj) := by
    intro j n e xj aj w hnj he hx haj hw hkeep hne
    have hp := hperm j e xj aj he hx haj
    have hxa : xj + aj ≠ xj := by simpa using hne
    rcases id hp with h0 | ⟨h1, h2, h3⟩
    · exact absurd h0 hxa
    by_cases hl : Listed b.aset n
    · exact ⟨h1, Or.inr (listed_iff.mpr hl), h2, hxa, hp, fun hd => absurd (listed_iff.mpr hl) (of_decide_eq_true hd)⟩
    have hpos := hkeep.resolve_left hl
    obtain ⟨d, hfl, hd0⟩ := (hag j e w aj he hw haj hpos).resolve_left (by
      rintro ⟨n', hn', hl'⟩
      rw [hnj] at hn'; obtain rfl := Option.some.inj hn'
      exact hl hl')
    have hdir : DirOk (b.aset.yDesired * sgn w) xj (xj + aj) := by
      refine keep_of_useful hy ?_
      rw [add_sub_cancel_left]; exact hpos
    have hdir' : DirOk d xj (xj + aj) :=
      ⟨fun h => hdir.1 ((mul_pos_iff_of_pos_left h).mp hd0), fun h => hdir.2 (neg_of_mul_pos_right hd0 h.le)⟩
    refine ⟨h1, Or.inl ?_, h2, hxa, hp, ?_⟩
    · intro hc
      unfold Elem.compatible at hc
      rw [hfl] at hc
      simp only [h1, Bool.not_true, Bool.false_eq_true, if_false, Option.some.injEq, Bool.not_eq_false',
        Bool.or_eq_true, decide_eq_true_eq] at hc
      rcases hc with rfl | hc
      · simp at hd0
      · obtain ⟨s1, s2⟩ := h3
        obtain ⟨t1, t2⟩ := hdir'
        apply hxa
        rcases Int.mul_eq_neg_one_iff_eq_one_or_neg_one.mp hc with ⟨rfl, hs⟩ | ⟨rfl, hs⟩
        · exact le_antisymm (s2 (by rw [hs]; decide)) (t1 (by decide))
        · exact le_antisymm (t2 (by decide)) (s1 (by rw [hs]; decide))
    · intro _ d' hd'
      rw [hfl] at hd'
      obtain rfl := Option.some.inj hd'
      exact hdir'
  have hpos : ∀ f ∈ feats, ∃ (k : ℕ) (xj v : K), k < f.actions.length ∧ (∃ e, FeatSpecFl ext r b x f e xj ∧ Permitted e xj v) ∧
      f.actions.getD k 0 = r.fl (v - xj) ∧ ∀ aj, a[f.idx]? = some aj →
      ((Listed b.aset f.name ∨ 0 < y * (f.coef * aj)) → v - xj = aj) ∧
      (¬ (Listed b.aset f.name ∨ 0 < y * (f.coef * aj)) → v - xj = 0) := by
    intro f hf
    obtain ⟨e, xj, hs⟩ := hspec f hf
    have hlt : f.idx < a.length := by rw [hal, ← hn]; exact hok.lt f hf
    obtain ⟨aj, haj⟩ : ∃ aj, a[f.idx]? = some aj := ⟨_, List.getElem?_eq_getElem hlt⟩
    by_cases hh : (Listed b.aset f.name ∨ 0 < y * (f.coef * aj)) ∧ aj ≠ 0
    · obtain ⟨g1, g2, g3, g4, g5, g6⟩ := helpful f.idx f.name e xj aj f.coef hs.name hs.elem hs.val haj hs.coef hh.1 hh.2
      obtain ⟨p, hp⟩ := hs.table xj
      obtain ⟨q, hq⟩ := hs.table (xj + aj)
      have hcl : isClose (r.fl (xj + aj - xj)) 0 = false := by
        rw [isClose_zero]
        have h1 := hroom.apart f.idx e xj (xj + aj) hs.elem hs.val g1 g3 g4
        have h2 := r.near (xj + aj - xj)
        have h3 := abs_sub_abs_le_abs_sub (xj + aj - xj) (r.fl (xj + aj - xj))
        rw [abs_sub_comm (xj + aj - xj) (r.fl (xj + aj - xj))] at h3
        rw [sub_mul, one_mul] at h1
        linarith
      have hmem := hs.cover (xj + aj) p q ((mem_feasX hs.fits).mpr ⟨g5, g6⟩) g4 hcl hp hq
        (fun hl => by
          obtain ⟨k1, k2⟩ := hroom.pct f.idx e xj xj (xj + aj) p q hs.elem hs.val g1 (Or.inl rfl) (Or.inr g3) hl hp hq
          exact upFl_pos hu hlog k1 k2)
        (fun hl => by
          obtain ⟨k1, k2⟩ := hroom.pct f.idx e xj (xj + aj) xj q p hs.elem hs.val g1 (Or.inr g3) (Or.inl rfl) hl hq hp
          exact dnFl_pos hu hlog k1 k2)
      obtain ⟨k, hk, hke⟩ := List.mem_iff_getElem.mp hmem
      refine ⟨k, xj, xj + aj, hk, ⟨e, hs, g5⟩, by rw [List.getD_eq_getElem _ _ hk, hke], fun aj' haj' => ?_⟩
      rw [haj] at haj'; obtain rfl := Option.some.inj haj'
      exact ⟨fun _ => by ring, fun hc => absurd hh.1 hc⟩
    · have h0 : r.fl 0 = 0 := (fl_eq_zero hu).mpr rfl
      have hz : f.actions.getD 0 0 = 0 := by
        have := hok.a0 f hf
        have h2 := hok.two f hf
        rw [List.getD_eq_getElem _ _ (by omega)] at this ⊢
        exact this
      refine ⟨0, xj, xj, by have := hok.two f hf; omega, ⟨e, hs, Or.inl rfl⟩, by rw [sub_self, h0, hz], fun aj' haj' => ?_⟩
      rw [haj] at haj'; obtain rfl := Option.some.inj haj'
      refine ⟨fun hc => ?_, fun _ => sub_self xj⟩
      rw [sub_self]
      by_contra hne
      exact hh ⟨hc, Ne.symm hne⟩
  obtain ⟨κ, hκ⟩ := choice_of_feats hok hpos
  classical
  choose! X V hXV using hκ
  refine ⟨κ, X, V, fun f hf => (hXV f hf).1, fun f hf => ⟨(hXV f hf).2.1, (hXV f hf).2.2.1⟩, ?_⟩
  intro j n u aj w hn' hu' haj hw
  have hj : j < b.coefs.length := (List.getElem?_eq_some_iff.mp hw).1
  by_cases hf : ∃ f ∈ feats, f.idx = j
  · obtain ⟨f, hf, rfl⟩ := hf
    have h3 := put_feat hok (fun f => V f - X f) hf
    change (valVec b.coefs.length feats fun f => V f - X f)[f.idx]? = _ at h3
    rw [hu'] at h3; obtain rfl := Option.some.inj h3
    obtain ⟨_, ⟨e, hs, -⟩, -, hcol⟩ := hXV f hf
    have := hs.coef; rw [hw] at this; obtain rfl := Option.some.inj this
    have := hs.name; rw [hn'] at this; obtain rfl := Option.some.inj this
    exact hcol aj haj
  · push Not at hf
    have h3 := put_other (n := b.coefs.length) (fun f : Feat K => V f - X f) hj hf
    change (valVec b.coefs.length feats fun f => V f - X f)[j]? = _ at h3
    rw [hu'] at h3; obtain rfl := Option.some.inj h3
    refine ⟨fun hc => ?_, fun _ => rfl⟩
    by_contra hne
    have hjn : j < b.aset.names.length := by rw [← hb.coefs]; exact hj
    have hje : j < b.aset.elems.length := by rw [hb.columns.length]; exact hjn
    have hjx : j < x.length := by rw [← hn]; exact hj
    obtain ⟨g1, g2, g3, g4, g5, g6⟩ := helpful j n _ _ aj w hn' (List.getElem?_eq_getElem hje)
      (List.getElem?_eq_getElem hjx) haj hw hc (Ne.symm hne)
    have hfit := hroom.fits j _ _ (List.getElem?_eq_getElem hje) (List.getElem?_eq_getElem hjx)
    obtain ⟨f, hfm, -, hfi⟩ := hcov j n _ _ hn' (List.getElem?_eq_getElem hje)
      (List.getElem?_eq_getElem hjx) g2 (by
        have m1 := (mem_feasX (drop := decide (n ∉ b.aset.cons.flatNames)) hfit).mpr ⟨g5, g6⟩
        have m2 : x[j] ∈ (b.aset.elems[j]).feasX x[j] (decide (n ∉ b.aset.cons.flatNames)) :=
          (mem_feasX hfit).mpr ⟨Or.inl rfl, fun _ _ _ => ⟨fun _ => le_refl _, fun _ => le_refl _⟩⟩
        exact two_le_of_mem m1 m2 g4)
    exact hf f hfm hfi

/-- **C105**, the converse.  If at a denied point some action reaches the desired side of the score with a margin of the rounding errors - that of the score, and `u · R` for
each feature times the size of its coefficient - and the situation leaves room for rounding, a solver that finishes finds an answer. -/
theorem C105_found (hso : SetOrderOk ext) (hu : r.u < 1) (hlog : LogOk ext) (ho : o.Complete) (hb : AnyGrids b0)
    (hy : b0.aset.yDesired = 1 ∨ b0.aset.yDesired = -1)
    {d : K} (hd : FlDot r b0.coefs x d) (hx : b0.setXFl r ext d x = (b1, .ok ())) (ha : b1.Refitted o b)
    (hf : b.fit o = .ok (b', i)) {R : K} (hR : ChangesWithin R b0.aset x)
    (hroom : RoomToRound ext r b0 x) (hla : LimitsApply b0.aset x) (hz : KnowsZero r b0.aset x) (hmin : b0.minItems ≤ 1)
    (hden : Denied b0 x)
    (hal : ∀ (j : ℕ) (e : Elem K) (w : K), b0.aset.elems[j]? = some e → b0.coefs[j]? = some w → w ≠ 0 → AgreesWith b0.aset.yDesired w e)
    {a : List K} (hrec : ClearRecourse (scoreError r b0 x + coefSize b0.coefs * (r.u * R)) b0.aset b0.coefs b0.intercept x a
      b0.maxItems) :
    i.feasible = true := by
  obtain ⟨feats, m, hxl, hbi, hm, rfl⟩ := setXFl_ok hx
  have hok := buildInfoFl_ok hso hu hb hbi
  obtain ⟨-, hxn, hspec, -⟩ := buildInfoFl_spec hso hu hb hbi
  obtain ⟨κ, X, V, hch, hE, hcol⟩ := exchangeFl hso hu hlog hb hy hbi hroom hrec.permitted (by
    intro j e w v he hw hv hpos
    exact Or.inr (hal j e w he hw (by rintro rfl; simp at hpos)))
  have hwl := hrec.permitted.1
  set a' := valVec b0.coefs.length feats fun f => V f - X f with ha'
  set y : K := (b0.aset.yDesired : K) with hydef
  set W : K := coefSize b0.coefs with hW
  set p : BuildArgs K := { b0.buildArgs x feats with score := b0.scoreFl r d } with hp
  have hlen1 : b0.coefs.length = a'.length := by rw [ha', valVec_length]
  have hlen2 : b0.coefs.length = a.length := by rw [hwl, hxl]
  have hnm : ∀ j < b0.coefs.length, ∃ n, b0.aset.names[j]? = some n := fun j hj =>
    ⟨_, List.getElem?_eq_getElem (by rw [← hb.coefs]; exact hj)⟩
  have hdot : y * dot b0.coefs a ≤ y * dot b0.coefs a' := by
    apply dot_le hlen2 hlen1
    intro j c u v hc hu' hv
    obtain ⟨n, hn'⟩ := hnm j (List.getElem?_eq_some_iff.mp hc).1
    obtain ⟨c1, c2⟩ := hcol j n v u c hn' hv hu' hc
    by_cases h : Listed b0.aset n ∨ 0 < y * (c * u)
    · rw [c1 h]
    · rw [c2 h, mul_zero, mul_zero]; push Not at h; exact h.2
  have huR : 0 ≤ r.u * R := mul_nonneg r.nonneg hR.1
  have hnear : Near (r.u * R) (actVec b0.coefs.length feats κ) a' := by
    refine valVec_near hok huR (v := fun f => f.act κ) fun f hf => ?_
    obtain ⟨⟨e, hs, hv⟩, hve⟩ := hE f hf
    rw [hve]
    refine (r.near _).trans (mul_le_mul_of_nonneg_left ?_ r.nonneg)
    exact hR.2 f.idx e (X f) (V f) hs.elem hs.val hv
  have hgain : dot b0.coefs (actVec b0.coefs.length feats κ) = choiceGain feats κ :=
    actVec_dot hok rfl fun f hf => by obtain ⟨_, _, hs⟩ := hspec f hf; exact hs.coef
  have hdn := dot_near b0.coefs _ _ hnear
  rw [hgain, ← hW] at hdn
  have herr : |b0.scoreFl r d - b0.score x| ≤ scoreError r b0 x := C104_error b0 hd
  have herr0 : 0 ≤ scoreError r b0 x := (abs_nonneg _).trans herr
  have hW0 : 0 ≤ W * (r.u * R) := (abs_nonneg _).trans hdn
  have hsc : scoreError r b0 x + W * (r.u * R) ≤ y * (b0.score x + dot b0.coefs a) := by
    have := hrec.score
    unfold ReachesScoreUpTo at this
    rw [dot_vadd _ _ _ hwl.symm] at this
    unfold Builder.score
    rw [hydef]
    rcases hy with hy | hy <;> rw [hy] at this ⊢
    · rw [if_pos (by decide)] at this; push_cast; linarith
    · rw [if_neg (by decide)] at this; push_cast; linarith
  have hsc' : scoreError r b0 x + W * (r.u * R) ≤ y * (b0.score x + dot b0.coefs a') := by
    rw [mul_add] at hsc ⊢; linarith
  have hchoice : ChoiceOK p κ := by
    refine ⟨hch, ?_, ?_, ?_, ?_⟩
    · refine (reaches_iff (s := b0.scoreFl r d + choiceGain feats κ) hy).mpr ?_
      have e1 := abs_le.mp herr
      have e2 := abs_le.mp hdn
      rw [← hydef]
      rw [hydef] at hsc' ⊢
      rcases hy with hy | hy <;> rw [hy] at hsc' ⊢ <;> push_cast at hsc' ⊢ <;> linarith [e1.1, e1.2, e2.1, e2.2]
    · change max b0.minItems 1 ≤ choiceSize feats κ
      rw [max_eq_right hmin]
      by_contra hlt
      have h0 : choiceSize feats κ = 0 := by omega
      have hzero : ∀ f ∈ feats, V f - X f = 0 := by
        unfold choiceSize at h0
        rw [List.countP_eq_zero] at h0
        intro f hf
        have hk : κ f.idx = 0 := by simpa using h0 f hf
        have := (hok.act_zero hf hch).mpr hk
        rw [(hE f hf).2, fl_eq_zero hu] at this
        exact this
      have hd0 : dot b0.coefs a' = 0 := by
        rw [ha', valVec_dot hok _ rfl (fun f hf => by obtain ⟨_, _, hs⟩ := hspec f hf; exact hs.coef)]
        apply List.sum_eq_zero
        intro v hv
        obtain ⟨f, hf, rfl⟩ := List.mem_map.mp hv
        rw [hzero f hf, mul_zero]
      rw [hd0, add_zero] at hsc'
      have : y * b0.score x < 0 := hden
      linarith
    · change choiceSize feats κ ≤ b0.maxItems
      refine le_trans ?_ hrec.max
      rw [← actVec_countP hok hch]
      unfold numChanged
      apply pointwise_countP_le (by rw [actVec_length, hlen2])
      intro j u v hu' hv hne
      have hj : j < b0.coefs.length := by
        rw [← actVec_length b0.coefs.length feats κ]; exact (List.getElem?_eq_some_iff.mp hu').1
      obtain ⟨n, hn'⟩ := hnm j hj
      simp only [decide_eq_true_eq] at hne ⊢
      rintro rfl
      apply hne
      by_cases hf : ∃ f ∈ feats, f.idx = j
      · obtain ⟨f, hf, rfl⟩ := hf
        have h3 := put_feat hok (fun f => f.act κ) hf
        change (actVec b0.coefs.length feats κ)[f.idx]? = _ at h3
        rw [hu'] at h3
        have h4 : a'[f.idx]? = some (V f - X f) := put_feat hok (fun f => V f - X f) hf
        obtain ⟨c1, c2⟩ := hcol f.idx n _ 0 _ hn' h4 hv (List.getElem?_eq_getElem hj)
        have h5 : V f - X f = 0 := by
          by_cases h : Listed b0.aset n ∨ 0 < y * (b0.coefs[f.idx] * 0)
          · exact c1 h
          · exact c2 h
        rw [Option.some.inj h3, (hE f hf).2, h5]
        exact (fl_eq_zero hu).mpr rfl
      · push Not at hf
        have h3 := put_other (n := b0.coefs.length) (fun f : Feat K => f.act κ) hj hf
        change (actVec b0.coefs.length feats κ)[j]? = _ at h3
        rw [hu'] at h3
        exact Option.some.inj h3
    · refine (limitsFl_iff hso hu hb hbi hla hz hch hE).mpr fun k hk => ?_
      have : numNonzero b0.aset x a' k.names = numNonzero b0.aset x a k.names := by
        unfold numNonzero
        apply List.countP_congr
        intro n hnk
        have hjn : b0.aset.names.idxOf n < b0.aset.names.length :=
          List.idxOf_lt_length_iff.mpr ((hb.cons k hk).known n hnk)
        have hjc : b0.aset.names.idxOf n < b0.coefs.length := by rw [hb.coefs]; exact hjn
        have hv : a'[b0.aset.names.idxOf n]? = a[b0.aset.names.idxOf n]? := by
          have hl1 : b0.aset.names.idxOf n < a'.length := by rw [← hlen1]; exact hjc
          have hl2 : b0.aset.names.idxOf n < a.length := by rw [← hlen2]; exact hjc
          rw [List.getElem?_eq_getElem hl1, List.getElem?_eq_getElem hl2]
          rw [(hcol _ n _ _ _ (List.getElem?_idxOf ((hb.cons k hk).known n hnk)) (List.getElem?_eq_getElem hl1)
            (List.getElem?_eq_getElem hl2) (List.getElem?_eq_getElem hjc)).1 (Or.inl ⟨k, hk, hnk⟩)]
        have hv' : (vadd x a').getD (b0.aset.names.idxOf n) 0 = (vadd x a).getD (b0.aset.names.idxOf n) 0 := by
          unfold vadd
          rw [List.getD_eq_getElem?_getD, List.getD_eq_getElem?_getD, List.getElem?_zipWith, List.getElem?_zipWith, hv]
        rw [hv']
      rw [← ha', this]
      exact hrec.limits k hk
  have hposed : Posed b0.coefs.length b0.backend p (fun _ => True)
      { b0 with x := some x, aset := b0.aset.touch ext true, mip := some m, feats := feats, sol := .unknown } :=
    ⟨⟨m, rfl, CutOf.base (p := p) hm hok, DeclsOK.base (p := p) hm hok⟩, rfl, rfl, rfl, rfl⟩
  obtain ⟨m', hm', hc, -⟩ := (hposed.refitted ha).mip
  obtain ⟨-, -, rfl⟩ := fit_ok hf
  obtain ⟨τ, hτ⟩ := hc.optimal_exists (p := p) hok ⟨κ, hchoice, trivial⟩
  obtain ⟨σ, hσ⟩ := (ho b.clock m').1 ⟨τ, hτ⟩
  have hsol : (b.solve o).sol = .optimal σ := by unfold Builder.solve; rw [hm', ← hσ]
  have hrep : (b.solve o).reported = some σ := by unfold Builder.reported; rw [hsol]
  have hmip : (b.solve o).mip = some m' := by rw [← hm']; exact (solve_fields o b).2.2.2.2.2.1
  unfold Builder.solutionInfo
  rw [hrep, hmip]

end Recourse
