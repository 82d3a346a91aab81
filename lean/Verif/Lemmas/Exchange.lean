import Verif.Lemmas.Subset

/-!
# From permitted recourse to choices of the program
-/

set_option linter.unusedSectionVars false

namespace Recourse

variable {K : Type} [Field K] [LinearOrder K] [IsStrictOrderedRing K] [FloorRing K]

variable {ext : Ext K} {b : Builder K} {x : List K} {f : Feat K} {e : Elem K} {xj : K} {t : Table K} {T : List K}

/-! ## Pointwise comparison of lists -/

theorem pointwise_sum_le : ∀ {l m : List K}, l.length = m.length →
    (∀ (j : ℕ) (u v : K), l[j]? = some u → m[j]? = some v → u ≤ v) → l.sum ≤ m.sum
  | [], [], _, _ => le_refl _
  | [], _ :: _, h, _ => by simp at h
  | _ :: _, [], h, _ => by simp at h
  | a :: l, c :: m, h, hp => by
    rw [List.sum_cons, List.sum_cons]
    have h0 := hp 0 a c rfl rfl
    have := pointwise_sum_le (l := l) (m := m) (by simpa using h) (fun j u v hu hv => hp (j + 1) u v hu hv)
    linarith

theorem pointwise_countP_le {P Q : K → Bool} : ∀ {l m : List K}, l.length = m.length →
    (∀ (j : ℕ) (u v : K), l[j]? = some u → m[j]? = some v → P u = true → Q v = true) →
    l.countP P ≤ m.countP Q
  | [], [], _, _ => le_refl _
  | [], _ :: _, h, _ => by simp at h
  | _ :: _, [], h, _ => by simp at h
  | a :: l, c :: m, h, hp => by
    rw [List.countP_cons, List.countP_cons]
    have h0 := hp 0 a c rfl rfl
    have := pointwise_countP_le (l := l) (m := m) (P := P) (Q := Q) (by simpa using h)
      (fun j u v hu hv => hp (j + 1) u v hu hv)
    by_cases hPa : P a = true
    · rw [if_pos hPa, if_pos (h0 hPa)]; omega
    · rw [if_neg hPa]; split_ifs <;> omega

theorem dot_le {y : K} : ∀ {w l m : List K}, w.length = l.length → w.length = m.length →
    (∀ (j : ℕ) (c u v : K), w[j]? = some c → l[j]? = some u → m[j]? = some v → y * (c * u) ≤ y * (c * v)) →
    y * dot w l ≤ y * dot w m
  | [], [], [], _, _, _ => le_refl _
  | [], _ :: _, _, h, _, _ => by simp at h
  | [], [], _ :: _, _, h, _ => by simp at h
  | _ :: _, [], _, h, _, _ => by simp at h
  | _ :: _, _ :: _, [], _, h, _ => by simp at h
  | c :: w, a :: l, d :: m, h1, h2, hp => by
    have h0 := hp 0 c a d rfl rfl rfl
    have := dot_le (y := y) (w := w) (l := l) (m := m) (by simpa using h1) (by simpa using h2)
      (fun j c u v hc hu hv => hp (j + 1) c u v hc hu hv)
    unfold dot at this ⊢
    simp only [List.zipWith_cons_cons, List.sum_cons, mul_add]
    linarith

theorem reaches_iff {y : Int} (hy : y = 1 ∨ y = -1) (s : K) :
    (if 0 < y then 0 ≤ s else s ≤ 0) ↔ 0 ≤ (y : K) * s := by
  rcases hy with rfl | rfl <;> simp

/-! ## Orientation of usable features -/

theorem FeatSpec.side (hb : BuilderOK ext b) (h : FeatSpec ext b x f e xj t T) : ∀ v ∈ T,
    ((buildOrder (e.feasX xj (dropOf b f)) xj).1 = true ∧ xj < v) ∨
    ((buildOrder (e.feasX xj (dropOf b f)) xj).1 = false ∧ v < xj) := by
  have hp := h.feasX_nodup hb
  have ho := h.order
  intro v hv
  change (buildOrder (e.feasX xj (dropOf b f)) xj).2 = xj :: T at ho
  unfold buildOrder at ho ⊢
  by_cases hc : isClose ((e.feasX xj (dropOf b f)).getLastD 0 - xj) 0 = true
  · rw [if_pos hc] at ho ⊢
    right
    refine ⟨rfl, ?_⟩
    have : (xj :: T).Pairwise (fun a c => c < a) := by
      rw [← ho, List.pairwise_reverse]; exact hp
    exact (List.pairwise_cons.mp this).1 v hv
  · rw [if_neg hc] at ho ⊢
    left
    refine ⟨rfl, ?_⟩
    have ho : e.feasX xj (dropOf b f) = xj :: T := ho
    rw [ho] at hp
    exact (List.pairwise_cons.mp hp).1 v hv

/-- Strictly increasing percentiles make the step costs of the offered values positive. -/
theorem FeatSpec.cost_pos (hb : BuilderOK ext b) (h : FeatSpec ext b x f e xj t T) (hlog : LogOk ext)
    {v : K} (hv : v ∈ T)
    (hpct : (xj < v → t.eval xj < t.eval v) ∧ (v < xj → t.eval v < t.eval xj) ∧
      (b.costType = .loc → t.eval xj < 1 ∧ t.eval v < 1)) : 0 < fCost ext b f e xj t v := by
  obtain ⟨h1, h2, h3⟩ := hpct
  unfold fCost stepCost
  rcases h.side hb v hv with ⟨e1, hlt⟩ | ⟨e1, hlt⟩
  · rw [e1]
    have := h1 hlt
    by_cases hl : b.costType = .loc
    · rw [if_pos hl, if_pos rfl]
      obtain ⟨g1, g2⟩ := h3 hl
      rw [hlog _ (div_pos (by linarith) (by linarith)), one_lt_div (by linarith)]
      linarith
    · rw [if_neg hl, if_pos rfl]; linarith
  · rw [e1]
    have := h2 hlt
    by_cases hl : b.costType = .loc
    · rw [if_pos hl, if_neg (by decide)]
      obtain ⟨g1, g2⟩ := h3 hl
      rw [hlog _ (div_pos (by linarith) (by linarith)), one_lt_div (by linarith)]
      linarith
    · rw [if_neg hl, if_neg (by decide)]; linarith

/-- Move costs are positive when percentiles differ. -/
theorem MoveCost.pos {ct : CostType} {v c : K} (hlog : LogOk ext) (h : MoveCost ext ct e xj v c)
    (hv : v ≠ xj)
    (hp : ∀ p q, e.percentile ext xj = .ok p → e.percentile ext v = .ok q →
      (xj < v → p < q) ∧ (v < xj → q < p) ∧ (ct = .loc → p < 1 ∧ q < 1)) : 0 < c := by
  obtain ⟨p, q, h1, h2, rfl⟩ := h
  obtain ⟨g1, g2, g3⟩ := hp p q h1 h2
  have hne : p ≠ q := by
    rcases lt_or_gt_of_ne hv with h | h
    · exact (g2 h).ne'
    · exact (g1 h).ne
  by_cases hl : ct = .loc
  · rw [if_pos hl]
    obtain ⟨k1, k2⟩ := g3 hl
    have m1 : max p q < 1 := max_lt k1 k2
    have m2 : min p q < max p q := min_lt_max.mpr hne
    rw [hlog _ (div_pos (by linarith) (by linarith)), one_lt_div (by linarith)]
    linarith
  · rw [if_neg hl]
    exact abs_pos.mpr (sub_ne_zero.mpr hne.symm)

theorem isClose_zero {a : K} : isClose a 0 = false ↔ 1 / 10 ^ 8 < |a| := by
  unfold isClose isCloseTol
  simp

variable {feats : List (Feat K)} {κ : ℕ → ℕ}

/-- A choice given feature by feature. -/
theorem choice_of_feats {n : ℕ} (hok : FeatsOK n feats) {P : Feat K → ℕ → Prop}
    (h : ∀ f ∈ feats, ∃ k, P f k) : ∃ κ : ℕ → ℕ, ∀ f ∈ feats, P f (κ f.idx) := by
  classical
  choose! g hg using h
  refine ⟨fun j => ((feats.find? fun f => decide (f.idx = j)).map g).getD 0, fun f hf => ?_⟩
  simp only [find_idx hok.nodup hf, Option.map_some, Option.getD_some]
  exact hg f hf

/-- Percentiles at the point and at a grid value. -/
theorem Placed.pct_move (h : Placed ext b x) {j : ℕ} {v p q : K} (he : b.aset.elems[j]? = some e)
    (hx : x[j]? = some xj) (ha : e.actionable = true) (hv : v ∈ e.grid.vals)
    (hp : e.percentile ext xj = .ok p) (hq : e.percentile ext v = .ok q) :
    (xj < v → p < q) ∧ (v < xj → q < p) ∧ (b.costType = .loc → p < 1 ∧ q < 1) :=
  ⟨fun hl => h.pct j e xj xj v p q he hx ha (Or.inl rfl) (Or.inr hv) hl hp hq,
    fun hl => h.pct j e xj v xj q p he hx ha (Or.inr hv) (Or.inl rfl) hl hq hp,
    fun hc => ⟨h.below hc j e xj xj p he hx ha (Or.inl rfl) hp, h.below hc j e xj v q he hx ha (Or.inr hv) hq⟩⟩

theorem Situated.pct_move (h : Situated ext b x) {j : ℕ} {v p q : K} (he : b.aset.elems[j]? = some e)
    (hx : x[j]? = some xj) (ha : e.actionable = true) (hv : v ∈ e.grid.vals)
    (hp : e.percentile ext xj = .ok p) (hq : e.percentile ext v = .ok q) :
    (xj < v → p < q) ∧ (v < xj → q < p) ∧ (b.costType = .loc → p < 1 ∧ q < 1) :=
  h.placed.pct_move he hx ha hv hp hq

theorem Regular.pct_move (h : Regular ext b x) {j : ℕ} {v p q : K} (he : b.aset.elems[j]? = some e)
    (hx : x[j]? = some xj) (ha : e.actionable = true) (hv : v ∈ e.grid.vals)
    (hp : e.percentile ext xj = .ok p) (hq : e.percentile ext v = .ok q) :
    (xj < v → p < q) ∧ (v < xj → q < p) ∧ (b.costType = .loc → p < 1 ∧ q < 1) :=
  h.situated.pct_move he hx ha hv hp hq

/-- The costs of a choice, when grids and percentiles are in order. -/
theorem placed_actionCosts (hso : SetOrderOk ext) (hb : BuilderOK ext b) (hlog : LogOk ext)
    (h : b.buildInfo ext x = .ok feats) (hreg : Placed ext b x) (hκ : Choice feats κ) :
    ActionCosts ext b.costType b.aset x (actVec b.coefs.length feats κ) (cstVec b.coefs.length feats κ) := by
  have hok := buildInfo_ok hso hb h
  obtain ⟨-, hxl, hspec, -⟩ := buildInfo_spec hso hb h
  refine ⟨by rw [cstVec_length, hxl, hb.coefs], ?_⟩
  intro j e xj aj c he hxj haj hcj
  by_cases hfe : ∃ f ∈ feats, f.idx = j
  · obtain ⟨f, hfm, rfl⟩ := hfe
    obtain ⟨e', xj', t, T, hs⟩ := hspec f hfm
    have q1 := hs.elem; rw [he] at q1; obtain rfl := Option.some.inj q1
    have q2 := hs.val; rw [hxj] at q2; obtain rfl := Option.some.inj q2
    have q3 := put_feat hok (fun f => f.act κ) hfm
    change (actVec b.coefs.length feats κ)[f.idx]? = _ at q3
    rw [haj] at q3; obtain rfl := Option.some.inj q3
    have q4 := put_feat hok (fun f => f.cst κ) hfm
    change (cstVec b.coefs.length feats κ)[f.idx]? = _ at q4
    rw [hcj] at q4; obtain rfl := Option.some.inj q4
    have hz := hok.act_zero hfm hκ
    refine ⟨fun h0 => (hok.cst_pos hfm hκ).1 (hz.mp h0), fun h0 => ?_⟩
    have hk0 : κ f.idx ≠ 0 := fun hh => h0 (hz.mpr hh)
    obtain ⟨v, hv, hp, -, hbug, hav, hcv⟩ := hs.offered hb (Nat.pos_of_ne_zero hk0) (hκ f hfm)
    rcases hp with hp | ⟨p1, p2, -⟩
    · exact absurd hp hv
    refine ⟨t.eval xj, t.eval v, hs.percentile xj, ?_, ?_⟩
    · unfold Feat.act; rw [hav, add_sub_cancel]; exact hs.percentile v
    · unfold Feat.cst
      rw [hcv]
      exact stepCost_moveCost hlog
        (hreg.pct_move hs.elem hs.val p1 p2 (hs.percentile _) (hs.percentile _)).2.2 (isBug_false hbug).1
  · push Not at hfe
    have hj : j < b.coefs.length := by
      rw [← actVec_length b.coefs.length feats κ]
      exact (List.getElem?_eq_some_iff.mp haj).1
    have q3 := put_other (n := b.coefs.length) (fun f : Feat K => f.act κ) hj hfe
    change (actVec b.coefs.length feats κ)[j]? = _ at q3
    rw [haj] at q3; obtain rfl := Option.some.inj q3
    have q4 := put_other (n := b.coefs.length) (fun f : Feat K => f.cst κ) hj hfe
    change (cstVec b.coefs.length feats κ)[j]? = _ at q4
    rw [hcj] at q4; obtain rfl := Option.some.inj q4
    exact ⟨fun _ => rfl, fun h => absurd rfl h⟩

theorem situated_actionCosts (hso : SetOrderOk ext) (hb : BuilderOK ext b) (hlog : LogOk ext)
    (h : b.buildInfo ext x = .ok feats) (hreg : Situated ext b x) (hκ : Choice feats κ) :
    ActionCosts ext b.costType b.aset x (actVec b.coefs.length feats κ) (cstVec b.coefs.length feats κ) :=
  placed_actionCosts hso hb hlog h hreg.placed hκ

theorem regular_actionCosts (hso : SetOrderOk ext) (hb : BuilderOK ext b) (hlog : LogOk ext)
    (h : b.buildInfo ext x = .ok feats) (hreg : Regular ext b x) (hκ : Choice feats κ) :
    ActionCosts ext b.costType b.aset x (actVec b.coefs.length feats κ) (cstVec b.coefs.length feats κ) :=
  situated_actionCosts hso hb hlog h hreg.situated hκ

/-- Useful values are on the side of the flip direction. -/
theorem keep_of_useful {y : Int} (hy : y = 1 ∨ y = -1) {w z : K} (hpos : 0 < (y : K) * (w * (z - xj))) :
    DirOk (y * sgn w) xj z := by
  unfold DirOk
  have hw0 : w ≠ 0 := by rintro rfl; simp at hpos
  rcases hy with rfl | rfl <;>
    rcases sgn_cases w with ⟨hs, hw'⟩ | ⟨hs, hw'⟩ | ⟨hs, hw'⟩ <;> rw [hs]
  · have : 0 < z - xj := by
      by_contra hc; push Not at hc
      have := mul_nonpos_of_nonneg_of_nonpos hw'.le hc
      simp at hpos; linarith
    simp; linarith
  · have : z - xj < 0 := by
      by_contra hc; push Not at hc
      have := mul_nonpos_of_nonpos_of_nonneg hw'.le hc
      simp at hpos; linarith
    simp; linarith
  · exact absurd hw' hw0
  · have : z - xj < 0 := by
      by_contra hc; push Not at hc
      have := mul_nonneg hw'.le hc
      simp at hpos; linarith
    simp; linarith
  · have : 0 < z - xj := by
      by_contra hc; push Not at hc
      have := mul_nonneg_of_nonpos_of_nonpos hw'.le hc
      simp at hpos; linarith
    simp; linarith
  · exact absurd hw' hw0

/-- The part of an action that helps, as a choice of the program: exactly the changes of features not listed in a limit
that do not help are dropped; no feature gets more expensive. -/
theorem exchange_core (hso : SetOrderOk ext) (hb : BuilderOK ext b) (hlog : LogOk ext)
    (h : b.buildInfo ext x = .ok feats) (hreg : Placed ext b x) {a : List K} (ha : PermittedAction b.aset x a)
    (hag : ∀ (j : ℕ) (e : Elem K) (w v : K), b.aset.elems[j]? = some e → b.coefs[j]? = some w → a[j]? = some v →
      0 < (b.aset.yDesired : K) * (w * v) → (∃ n, b.aset.names[j]? = some n ∧ Listed b.aset n) ∨
        AgreesWith b.aset.yDesired w e) :
    ∃ κ, Choice feats κ ∧
      (∀ (j : ℕ) (n : String) (u v w : K), b.aset.names[j]? = some n →
        (actVec b.coefs.length feats κ)[j]? = some u → a[j]? = some v → b.coefs[j]? = some w →
        ((Listed b.aset n ∨ 0 < (b.aset.yDesired : K) * (w * v)) → u = v) ∧
        (¬ (Listed b.aset n ∨ 0 < (b.aset.yDesired : K) * (w * v)) → u = 0)) ∧
      ∀ cs, ActionCosts ext b.costType b.aset x a cs → ∀ (j : ℕ) (u c : K),
        (cstVec b.coefs.length feats κ)[j]? = some u → cs[j]? = some c → u ≤ c := by
  obtain ⟨-, hxl, hspec, hcov⟩ := buildInfo_spec hso hb h
  have hok := buildInfo_ok hso hb h
  obtain ⟨hal, hperm⟩ := ha
  have hwf := hb.aset.wf
  have hy := hwf.y
  set y : K := (b.aset.yDesired : K) with hydef
  have hn : b.coefs.length = x.length := by rw [hb.coefs, hxl]
  -- what a permitted move that is kept implies
  have helpful : ∀ (j : ℕ) (n : String) (e : Elem K) (xj aj w : K), b.aset.names[j]? = some n →
      b.aset.elems[j]? = some e → x[j]? = some xj →
      a[j]? = some aj → b.coefs[j]? = some w → (Listed b.aset n ∨ 0 < y * (w * aj)) → aj ≠ 0 →
      e.actionable = true ∧ (e.compatible ≠ some false ∨ n ∈ b.aset.cons.flatNames) ∧ xj + aj ∈ e.grid.vals ∧
      xj + aj ≠ xj ∧ Permitted e xj (xj + aj) ∧ KeepFlip e (decide (n ∉ b.aset.cons.flatNames)) xj (xj + aj) := by
    intro j n e xj aj w hnj he hx haj hw hkeep hne
    have hp := hperm j e xj aj he hx haj
    have hxa : xj + aj ≠ xj := by simpa using hne
    rcases id hp with h0 | ⟨h1, h2, h3⟩
    · exact absurd h0 hxa
    by_cases hl : Listed b.aset n
    · exact ⟨h1, Or.inr (listed_iff.mpr hl), h2, hxa, hp, fun hd => absurd (listed_iff.mpr hl) (of_decide_eq_true hd)⟩
    have hpos := hkeep.resolve_left hl
    obtain ⟨d, hfl, hd0⟩ := (hag j e w aj he hw haj hpos).resolve_left (by
      rintro ⟨n', hn', hl'⟩
      rw [hnj] at hn'; obtain rfl := Option.some.inj hn'
      exact hl hl')
    have hdir : DirOk (b.aset.yDesired * sgn w) xj (xj + aj) := by
      refine keep_of_useful hy ?_
      rw [add_sub_cancel_left]; exact hpos
    have hdir' : DirOk d xj (xj + aj) :=
      ⟨fun h => hdir.1 ((mul_pos_iff_of_pos_left h).mp hd0), fun h => hdir.2 (neg_of_mul_pos_right hd0 h.le)⟩
    refine ⟨h1, Or.inl ?_, h2, hxa, hp, ?_⟩
    · intro hc
      unfold Elem.compatible at hc
      rw [hfl] at hc
      simp only [h1, Bool.not_true, Bool.false_eq_true, if_false, Option.some.injEq, Bool.not_eq_false',
        Bool.or_eq_true, decide_eq_true_eq] at hc
      rcases hc with rfl | hc
      · simp at hd0
      · obtain ⟨s1, s2⟩ := h3
        obtain ⟨t1, t2⟩ := hdir'
        apply hxa
        rcases Int.mul_eq_neg_one_iff_eq_one_or_neg_one.mp hc with ⟨rfl, hs⟩ | ⟨rfl, hs⟩
        · exact le_antisymm (s2 (by rw [hs]; decide)) (t1 (by decide))
        · exact le_antisymm (t2 (by decide)) (s1 (by rw [hs]; decide))
    · intro _ d' hd'
      rw [hfl] at hd'
      obtain rfl := Option.some.inj hd'
      exact hdir'
  -- position of the helpful part of the move of each feature
  have hpos : ∀ f ∈ feats, ∃ k, k < f.actions.length ∧ ∀ aj, a[f.idx]? = some aj →
      ((Listed b.aset f.name ∨ 0 < y * (f.coef * aj)) ∧ aj ≠ 0 → f.actions.getD k 0 = aj ∧ ∀ e xj, b.aset.elems[f.idx]? = some e →
        x[f.idx]? = some xj → ∀ c, MoveCost ext b.costType e xj (xj + aj) c → f.costs.getD k 0 = c) ∧
      (¬ ((Listed b.aset f.name ∨ 0 < y * (f.coef * aj)) ∧ aj ≠ 0) → k = 0) := by
    intro f hf
    obtain ⟨e, xj, t, T, hs⟩ := hspec f hf
    have hlt : f.idx < a.length := by rw [hal, ← hn]; exact hok.lt f hf
    obtain ⟨aj, haj⟩ : ∃ aj, a[f.idx]? = some aj := ⟨_, List.getElem?_eq_getElem hlt⟩
    by_cases hh : (Listed b.aset f.name ∨ 0 < y * (f.coef * aj)) ∧ aj ≠ 0
    · obtain ⟨g1, g2, g3, g4, g5, g6⟩ := helpful f.idx f.name e xj aj f.coef hs.name hs.elem hs.val haj hs.coef hh.1 hh.2
      have hd : dropOf b f = decide (f.name ∉ b.aset.cons.flatNames) := rfl
      have hT : xj + aj ∈ T := (hs.mem_T hb _).mpr ⟨g4, g5, by rw [hd]; exact g6⟩
      have hpct := hreg.pct_move hs.elem hs.val g1 g3 (hs.percentile _) (hs.percentile _)
      have hcp := hs.cost_pos hb hlog hT hpct
      have hbug : isBug (xj + aj - xj) (fCost ext b f e xj t (xj + aj)) = false := by
        unfold isBug
        rw [isClose_zero.mpr (hreg.apart f.idx e xj (xj + aj) hs.elem hs.val g1 g3 g4),
          decide_eq_false (not_le.mpr hcp)]
        rfl
      obtain ⟨k, -, k2, k3, k4⟩ := hs.position hb g4 g5 (by rw [hd]; exact g6) hbug
      refine ⟨k, k2, fun aj' haj' => ?_⟩
      rw [haj] at haj'; obtain rfl := Option.some.inj haj'
      refine ⟨fun _ => ⟨by rw [k3]; ring, ?_⟩, fun hn => absurd hh hn⟩
      intro e' xj' he' hx' c hc
      rw [hs.elem] at he'; obtain rfl := Option.some.inj he'
      rw [hs.val] at hx'; obtain rfl := Option.some.inj hx'
      obtain ⟨p, q, hp, hq, rfl⟩ := hc
      rw [hs.percentile] at hp hq
      cases hp; cases hq
      rw [k4]
      exact stepCost_moveCost hlog hpct.2.2 hcp
    · refine ⟨0, by have := hok.two f hf; omega, fun aj' haj' => ?_⟩
      rw [haj] at haj'; obtain rfl := Option.some.inj haj'
      exact ⟨fun hc => absurd hc hh, fun _ => rfl⟩
  obtain ⟨κ, hκ⟩ := choice_of_feats hok hpos
  have hch : Choice feats κ := fun f hf => (hκ f hf).1
  -- the action of the choice, column by column
  have hcol : ∀ (j : ℕ) (n : String) (u aj w : K), b.aset.names[j]? = some n →
      (actVec b.coefs.length feats κ)[j]? = some u → a[j]? = some aj → b.coefs[j]? = some w →
      ((Listed b.aset n ∨ 0 < y * (w * aj)) → u = aj) ∧ (¬ (Listed b.aset n ∨ 0 < y * (w * aj)) → u = 0) := by
    intro j n u aj w hn' hu haj hw
    have hj : j < b.coefs.length := (List.getElem?_eq_some_iff.mp hw).1
    by_cases hf : ∃ f ∈ feats, f.idx = j
    · obtain ⟨f, hf, rfl⟩ := hf
      have h3 := put_feat hok (fun f => f.act κ) hf
      change (actVec b.coefs.length feats κ)[f.idx]? = _ at h3
      rw [hu] at h3; obtain rfl := Option.some.inj h3
      obtain ⟨e, xj, t, T, hs⟩ := hspec f hf
      have := hs.coef; rw [hw] at this; obtain rfl := Option.some.inj this
      have := hs.name; rw [hn'] at this; obtain rfl := Option.some.inj this
      obtain ⟨-, h4⟩ := hκ f hf
      obtain ⟨h5, h6⟩ := h4 aj haj
      constructor
      · intro hc
        by_cases h0 : aj = 0
        · rw [h0, hok.act_zero hf hch]; exact h6 fun hh => hh.2 h0
        · exact (h5 ⟨hc, h0⟩).1
      · intro hc
        rw [hok.act_zero hf hch]; exact h6 fun hh => hc hh.1
    · push Not at hf
      have h3 := put_other (n := b.coefs.length) (fun f : Feat K => f.act κ) hj hf
      change (actVec b.coefs.length feats κ)[j]? = _ at h3
      rw [hu] at h3; obtain rfl := Option.some.inj h3
      refine ⟨fun hc => ?_, fun _ => rfl⟩
      by_contra hne
      -- a kept move makes the column usable
      have hjn : j < b.aset.names.length := by rw [← hb.coefs]; exact hj
      have hje : j < b.aset.elems.length := by rw [hwf.length]; exact hjn
      have hjx : j < x.length := by rw [← hn]; exact hj
      obtain ⟨g1, g2, g3, g4, g5, g6⟩ := helpful j n _ _ aj w hn' (List.getElem?_eq_getElem hje)
        (List.getElem?_eq_getElem hjx) haj hw hc (Ne.symm hne)
      have hfit := hreg.fits j _ _ (List.getElem?_eq_getElem hje) (List.getElem?_eq_getElem hjx)
      obtain ⟨f, hfm, -, hfi⟩ := hcov j n _ _ hn' (List.getElem?_eq_getElem hje)
        (List.getElem?_eq_getElem hjx) g2 (by
          have m1 := (mem_feasX (drop := decide (n ∉ b.aset.cons.flatNames)) hfit).mpr ⟨g5, g6⟩
          have m2 : x[j] ∈ (b.aset.elems[j]).feasX x[j] (decide (n ∉ b.aset.cons.flatNames)) :=
            (mem_feasX hfit).mpr ⟨Or.inl rfl, fun _ _ _ => ⟨fun _ => le_refl _, fun _ => le_refl _⟩⟩
          exact two_le_of_mem m1 m2 g4)
      exact hf f hfm hfi
  have hlen2 : b.coefs.length = a.length := by rw [hal, hn]
  refine ⟨κ, hch, ?_, ?_⟩
  · exact fun j n u v w hn hu hv hw => hcol j n u v w hn hu hv hw
  · intro cs ⟨hcl, hcs⟩ j u c hu hc
    have hj : j < b.coefs.length := by
      rw [← cstVec_length b.coefs.length feats κ]; exact (List.getElem?_eq_some_iff.mp hu).1
    have hjn : j < b.aset.names.length := by rw [← hb.coefs]; exact hj
    have hje : j < b.aset.elems.length := by rw [hwf.length]; exact hjn
    have hjx : j < x.length := by rw [← hn]; exact hj
    have hja : j < a.length := by rw [← hlen2]; exact hj
    obtain ⟨c1, c2⟩ := hcs j _ _ _ c (List.getElem?_eq_getElem hje) (List.getElem?_eq_getElem hjx)
      (List.getElem?_eq_getElem hja) hc
    have hc0 : 0 ≤ c := by
      by_cases h0 : a[j] = 0
      · rw [c1 h0]
      · have hp := hperm j _ _ _ (List.getElem?_eq_getElem hje) (List.getElem?_eq_getElem hjx)
          (List.getElem?_eq_getElem hja)
        have hxa : x[j] + a[j] ≠ x[j] := by simpa using h0
        rcases hp with hp | ⟨p1, p2, p3⟩
        · exact absurd hp hxa
        · exact ((c2 h0).pos hlog hxa fun p q h1 h2 => hreg.pct_move (List.getElem?_eq_getElem hje)
            (List.getElem?_eq_getElem hjx) p1 p2 h1 h2).le
    by_cases hf : ∃ f ∈ feats, f.idx = j
    · obtain ⟨f, hf, rfl⟩ := hf
      have h3 := put_feat hok (fun f => f.cst κ) hf
      change (cstVec b.coefs.length feats κ)[f.idx]? = _ at h3
      rw [hu] at h3; obtain rfl := Option.some.inj h3
      obtain ⟨-, h4⟩ := hκ f hf
      obtain ⟨h5, h6⟩ := h4 _ (List.getElem?_eq_getElem hja)
      by_cases hh : (Listed b.aset f.name ∨ 0 < y * (f.coef * a[f.idx])) ∧ a[f.idx] ≠ 0
      · exact le_of_eq ((h5 hh).2 _ _ (List.getElem?_eq_getElem hje) (List.getElem?_eq_getElem hjx) c (c2 hh.2))
      · rw [(hok.cst_pos hf hch).1 (h6 hh)]; exact hc0
    · push Not at hf
      have h3 := put_other (n := b.coefs.length) (fun f : Feat K => f.cst κ) hj hf
      change (cstVec b.coefs.length feats κ)[j]? = _ at h3
      rw [hu] at h3; obtain rfl := Option.some.inj h3
      exact hc0

/-- **Exchange argument.**  From permitted recourse that respects the subset limits one gets an admitted choice
by dropping exactly the changes of features not listed in a limit that do not help; no feature gets more
expensive. -/
theorem exchange_any (hso : SetOrderOk ext) (hb : BuilderOK ext b) (hlog : LogOk ext)
    (h : b.buildInfo ext x = .ok feats) (hreg : Situated ext b x) (hden : Denied b x) {a : List K} {lo : ℕ}
    (ha : IsLimitedRecourse b.aset b.coefs b.intercept x a lo b.maxItems)
    (hag : ∀ (j : ℕ) (e : Elem K) (w v : K), b.aset.elems[j]? = some e → b.coefs[j]? = some w → a[j]? = some v →
      0 < (b.aset.yDesired : K) * (w * v) → (∃ n, b.aset.names[j]? = some n ∧ Listed b.aset n) ∨
        AgreesWith b.aset.yDesired w e) :
    ∃ κ, ChoiceOK (b.buildArgs x feats) κ ∧
      (∀ (j : ℕ) (n : String) (u v w : K), b.aset.names[j]? = some n →
        (actVec b.coefs.length feats κ)[j]? = some u → a[j]? = some v → b.coefs[j]? = some w →
        ((Listed b.aset n ∨ 0 < (b.aset.yDesired : K) * (w * v)) → u = v) ∧
        (¬ (Listed b.aset n ∨ 0 < (b.aset.yDesired : K) * (w * v)) → u = 0)) ∧
      ∀ cs, ActionCosts ext b.costType b.aset x a cs → ∀ (j : ℕ) (u c : K),
        (cstVec b.coefs.length feats κ)[j]? = some u → cs[j]? = some c → u ≤ c := by
  obtain ⟨-, hxl, hspec, hcov⟩ := buildInfo_spec hso hb h
  have hok := buildInfo_ok hso hb h
  have hlim := ha.limits
  obtain ⟨κ, hch, hcol, hcost⟩ := exchange_core hso hb hlog h hreg.placed ha.permitted hag
  obtain ⟨⟨hal, hperm⟩, -, hmax, hsc⟩ := ha.toIsRecourse
  have hwf := hb.aset.wf
  have hy := hwf.y
  set y : K := (b.aset.yDesired : K) with hydef
  have hn : b.coefs.length = x.length := by rw [hb.coefs, hxl]
  have hlen1 : b.coefs.length = (actVec b.coefs.length feats κ).length := (actVec_length _ _ _).symm
  have hlen2 : b.coefs.length = a.length := by rw [hal, hn]
  have hnm : ∀ j < b.coefs.length, ∃ n, b.aset.names[j]? = some n := fun j hj =>
    ⟨_, List.getElem?_eq_getElem (by rw [← hb.coefs]; exact hj)⟩
  have hdot : y * dot b.coefs a ≤ y * dot b.coefs (actVec b.coefs.length feats κ) := by
    apply dot_le hlen2 hlen1
    intro j c u v hc hu hv
    obtain ⟨n, hn'⟩ := hnm j (List.getElem?_eq_some_iff.mp hc).1
    obtain ⟨c1, c2⟩ := hcol j n v u c hn' hv hu hc
    by_cases h : Listed b.aset n ∨ 0 < y * (c * u)
    · rw [c1 h]
    · rw [c2 h, mul_zero, mul_zero]; push Not at h; exact h.2
  have hgain : dot b.coefs (actVec b.coefs.length feats κ) = choiceGain feats κ :=
    actVec_dot hok rfl fun f hf => by obtain ⟨_, _, _, _, hs⟩ := hspec f hf; exact hs.coef
  have hscore : 0 ≤ y * (b.score x + choiceGain feats κ) := by
    unfold ReachesScore at hsc
    rw [reaches_iff hy, dot_vadd _ _ _ hal.symm] at hsc
    rw [← hgain]
    unfold Builder.score
    have : y * (dot b.coefs x + dot b.coefs a + b.intercept)
        = y * (dot b.coefs x + b.intercept) + y * dot b.coefs a := by ring
    rw [← hydef, this] at hsc
    rw [mul_add]
    linarith
  refine ⟨κ, ⟨hch, ?_, ?_, ?_, ?_⟩, hcol, hcost⟩
  · exact (reaches_iff hy _).mpr hscore
  · -- something is changed
    change max b.minItems 1 ≤ choiceSize feats κ
    have hm : max b.minItems 1 = 1 := max_eq_right hreg.minItems
    rw [hm]
    by_contra hlt
    have h0 : choiceSize feats κ = 0 := by omega
    have hz : ∀ f ∈ feats, κ f.idx = 0 := by
      unfold choiceSize at h0
      rw [List.countP_eq_zero] at h0
      intro f hf
      simpa using h0 f hf
    have : choiceGain feats κ = 0 := by
      unfold choiceGain
      apply List.sum_eq_zero
      intro v hv
      obtain ⟨f, hf, rfl⟩ := List.mem_map.mp hv
      rw [(hok.act_zero hf hch).mpr (hz f hf), mul_zero]
    rw [this, add_zero] at hscore
    exact absurd hden (not_lt.mpr hscore)
  · change choiceSize feats κ ≤ b.maxItems
    refine le_trans ?_ hmax
    rw [← actVec_countP hok hch]
    unfold numChanged
    apply pointwise_countP_le (hlen1.symm.trans hlen2)
    intro j u v hu hv hne
    have hj : j < b.coefs.length := by rw [hlen1]; exact (List.getElem?_eq_some_iff.mp hu).1
    obtain ⟨n, hn'⟩ := hnm j hj
    obtain ⟨c1, c2⟩ := hcol j n u v _ hn' hu hv (List.getElem?_eq_getElem hj)
    simp only [decide_eq_true_eq] at hne ⊢
    rintro rfl
    apply hne
    by_cases h : Listed b.aset n ∨ 0 < y * (b.coefs[j] * 0)
    · exact c1 h
    · exact c2 h
  · refine (limits_iff hso hb h hreg.limits hch).mpr fun k hk => ?_
    have : numNonzero b.aset x (actVec b.coefs.length feats κ) k.names = numNonzero b.aset x a k.names := by
      unfold numNonzero
      apply List.countP_congr
      intro n hnk
      have hjn : b.aset.names.idxOf n < b.aset.names.length :=
        List.idxOf_lt_length_iff.mpr ((hwf.cons k hk).known n hnk)
      have hjc : b.aset.names.idxOf n < b.coefs.length := by rw [hb.coefs]; exact hjn
      have hv : (actVec b.coefs.length feats κ)[b.aset.names.idxOf n]? = a[b.aset.names.idxOf n]? := by
        have hl1 : b.aset.names.idxOf n < (actVec b.coefs.length feats κ).length := by rw [← hlen1]; exact hjc
        have hl2 : b.aset.names.idxOf n < a.length := by rw [← hlen2]; exact hjc
        rw [List.getElem?_eq_getElem hl1, List.getElem?_eq_getElem hl2]
        rw [(hcol _ n _ _ _ (List.getElem?_idxOf ((hwf.cons k hk).known n hnk)) (List.getElem?_eq_getElem hl1)
          (List.getElem?_eq_getElem hl2) (List.getElem?_eq_getElem hjc)).1 (Or.inl ⟨k, hk, hnk⟩)]
      have hv' : (vadd x (actVec b.coefs.length feats κ)).getD (b.aset.names.idxOf n) 0
          = (vadd x a).getD (b.aset.names.idxOf n) 0 := by
        unfold vadd
        rw [List.getD_eq_getElem?_getD, List.getD_eq_getElem?_getD, List.getElem?_zipWith, List.getElem?_zipWith, hv]
      rw [hv']
    rw [this]
    exact hlim k hk

/-- With the action set aligned to the builder's classifier. -/
theorem exchange' (hso : SetOrderOk ext) (hb : BuilderOK ext b) (hlog : LogOk ext)
    (h : b.buildInfo ext x = .ok feats) (hreg : Regular ext b x) (hden : Denied b x) {a : List K} {lo : ℕ}
    (ha : IsLimitedRecourse b.aset b.coefs b.intercept x a lo b.maxItems) :
    ∃ κ, ChoiceOK (b.buildArgs x feats) κ ∧
      (∀ (j : ℕ) (n : String) (u v w : K), b.aset.names[j]? = some n →
        (actVec b.coefs.length feats κ)[j]? = some u → a[j]? = some v → b.coefs[j]? = some w →
        ((Listed b.aset n ∨ 0 < (b.aset.yDesired : K) * (w * v)) → u = v) ∧
        (¬ (Listed b.aset n ∨ 0 < (b.aset.yDesired : K) * (w * v)) → u = 0)) ∧
      ∀ cs, ActionCosts ext b.costType b.aset x a cs → ∀ (j : ℕ) (u c : K),
        (cstVec b.coefs.length feats κ)[j]? = some u → cs[j]? = some c → u ≤ c := by
  refine exchange_any hso hb hlog h hreg.situated hden ha fun j e w v he hw hv hpos => Or.inr ?_
  refine ⟨_, hreg.aligned j e w he hw, ?_⟩
  have hw0 : w ≠ 0 := by rintro rfl; simp at hpos
  have hy := hb.aset.wf.y
  apply mul_self_pos.mpr
  apply mul_ne_zero
  · rcases hy with h | h <;> rw [h] <;> decide
  · rcases sgn_cases w with ⟨h1, -⟩ | ⟨h1, -⟩ | ⟨-, h1⟩
    · rw [h1]; decide
    · rw [h1]; decide
    · exact absurd h1 hw0

/-- In regular situations every admitted choice is recourse that respects the subset limits. -/
theorem choice_limited' (hso : SetOrderOk ext) (hb : BuilderOK ext b) (h : b.buildInfo ext x = .ok feats)
    (hreg : Situated ext b x) (hκ : ChoiceOK (b.buildArgs x feats) κ) :
    IsLimitedRecourse b.aset b.coefs b.intercept x (actVec b.coefs.length feats κ) 1 b.maxItems := by
  have har := choice_isRecourse hso hb h hκ
  exact ⟨⟨har.permitted, le_trans (le_max_right _ _) har.min, har.max, har.score⟩,
    (limits_iff hso hb h hreg.limits hκ.lt).mp hκ.limits⟩

theorem choice_limited (hso : SetOrderOk ext) (hb : BuilderOK ext b) (h : b.buildInfo ext x = .ok feats)
    (hreg : Regular ext b x) (hκ : ChoiceOK (b.buildArgs x feats) κ) :
    IsLimitedRecourse b.aset b.coefs b.intercept x (actVec b.coefs.length feats κ) 1 b.maxItems :=
  choice_limited' hso hb h hreg.situated hκ

/-- The exchange argument, without the description of the dropped changes. -/
theorem exchange (hso : SetOrderOk ext) (hb : BuilderOK ext b) (hlog : LogOk ext)
    (h : b.buildInfo ext x = .ok feats) (hreg : Regular ext b x) (hden : Denied b x) {a : List K} {lo : ℕ}
    (ha : IsLimitedRecourse b.aset b.coefs b.intercept x a lo b.maxItems) :
    ∃ κ, ChoiceOK (b.buildArgs x feats) κ ∧
      (∀ (j : ℕ) (u v : K), (actVec b.coefs.length feats κ)[j]? = some u → a[j]? = some v → u = 0 ∨ u = v) ∧
      ∀ cs, ActionCosts ext b.costType b.aset x a cs → ∀ (j : ℕ) (u c : K),
        (cstVec b.coefs.length feats κ)[j]? = some u → cs[j]? = some c → u ≤ c := by
  obtain ⟨κ, h1, h2, h3⟩ := exchange' hso hb hlog h hreg hden ha
  refine ⟨κ, h1, fun j u v hu hv => ?_, h3⟩
  have hj : j < b.coefs.length := by
    rw [← actVec_length b.coefs.length feats κ]; exact (List.getElem?_eq_some_iff.mp hu).1
  obtain ⟨c1, c2⟩ := h2 j _ u v _ (List.getElem?_eq_getElem (by rw [← hb.coefs]; exact hj)) hu hv
    (List.getElem?_eq_getElem hj)
  by_cases h : Listed b.aset (b.aset.names[j]'(by rw [← hb.coefs]; exact hj)) ∨
      0 < (b.aset.yDesired : K) * (b.coefs[j] * v)
  · exact Or.inr (c1 h)
  · exact Or.inl (c2 h)

end Recourse
