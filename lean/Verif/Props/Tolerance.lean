import Verif.Lemmas.Tolerance
import Verif.Props.Fit
import Verif.Props.Enum

/-!
# Solvers with tolerances (C102)
-/

set_option linter.unusedSectionVars false

namespace Recourse

variable {K : Type} [Field K] [LinearOrder K] [IsStrictOrderedRing K] [FloorRing K]

variable {ext : Ext K} {o : Oracle K} {b0 b1 b b' : Builder K} {x : List K} {i : Info K}

/-- A choice is permitted. -/
theorem choice_permitted (hso : SetOrderOk ext) (hb : BuilderOK ext b) {feats : List (Feat K)}
    (h : b.buildInfo ext x = .ok feats) {κ : ℕ → ℕ} (hκ : Choice feats κ) :
    PermittedAction b.aset x (actVec b.coefs.length feats κ) := by
  obtain ⟨-, hxl, hspec, -⟩ := buildInfo_spec hso hb h
  have hok := buildInfo_ok hso hb h
  have hlen : (actVec b.coefs.length feats κ).length = x.length := by
    rw [actVec_length, hxl, hb.coefs]
  refine ⟨hlen, ?_⟩
  intro j e xj aj he hx ha
  by_cases hf : ∃ f ∈ feats, f.idx = j
  · obtain ⟨f, hf, rfl⟩ := hf
    obtain ⟨e', xj', t, T, hs⟩ := hspec f hf
    have h1 := hs.elem; rw [he] at h1; cases h1
    have h2 := hs.val; rw [hx] at h2; cases h2
    have h3 := put_feat hok (fun f => f.act κ) hf
    change (actVec b.coefs.length feats κ)[f.idx]? = _ at h3
    rw [ha] at h3; cases h3
    exact hs.permitted hb (hκ f hf)
  · push Not at hf
    have hj : j < b.coefs.length := by
      rw [← actVec_length b.coefs.length feats κ]
      exact (List.getElem?_eq_some_iff.mp ha).1
    have h3 := put_other (n := b.coefs.length) (fun f : Feat K => f.act κ) hj hf
    change (actVec b.coefs.length feats κ)[j]? = _ at h3
    rw [ha] at h3; cases h3
    left; simp

theorem dirFilter_length (d : Int) (x : K) (l : List K) : (dirFilter d x l).length ≤ l.length := by
  unfold dirFilter
  split_ifs
  · exact List.length_filter_le _ _
  · exact List.length_filter_le _ _
  · exact le_rfl

theorem npInsert_length (l : List K) (i : ℕ) (v : K) : (npInsert l i v).length = l.length + 1 := by
  unfold npInsert
  have := congrArg List.length (List.take_append_drop i l)
  rw [List.length_append] at this
  rw [List.length_append, List.length_cons]; omega

theorem feasX_length (e : Elem K) (x : K) (drop : Bool) : (e.feasX x drop).length ≤ e.grid.vals.length + 1 := by
  have hbase : (e.baseX x).length ≤ e.grid.vals.length + 1 := by
    have := dirFilter_length e.stepDir x e.grid.vals
    unfold Elem.baseX
    split_ifs
    · omega
    · rw [npInsert_length]; omega
    · rw [npInsert_length]; omega
    · simp
  unfold Elem.feasX
  split
  · exact (dirFilter_length _ _ _).trans hbase
  · exact hbase

/-- The offered moves of a feature are not more than the grid has values, plus one. -/
theorem FeatSpec.actions_length {f : Feat K} {e : Elem K} {xj : K} {t : Table K} {T : List K}
    (h : FeatSpec ext b x f e xj t T) : f.actions.length ≤ e.grid.vals.length + 1 := by
  rw [h.actions, List.length_cons, List.length_map]
  have h1 := congrArg List.length h.order
  rw [buildOrder_length, List.length_cons] at h1
  have h2 := feasX_length e xj (decide (f.name ∉ b.aset.cons.flatNames))
  have := List.length_filter_le (fun v => !isBug (v - xj) (stepCost ext b.costType t.eval xj
      (buildOrder (e.feasX xj (decide (f.name ∉ b.aset.cons.flatNames))) xj).1 v)) T
  omega

/-- The vector of the action variables. -/
def valVec (n : ℕ) (feats : List (Feat K)) (v : Feat K → K) : List K := npPut n (feats.map fun f => (f.idx, v f))

theorem valVec_length (n : ℕ) (feats : List (Feat K)) (v : Feat K → K) : (valVec n feats v).length = n := by
  unfold valVec; rw [npPut_eq, putInto_length]; simp

theorem valVec_dot {n : ℕ} {feats : List (Feat K)} (hok : FeatsOK n feats) (v : Feat K → K) {w : List K}
    (hw : w.length = n) (hc : ∀ f ∈ feats, w[f.idx]? = some f.coef) :
    dot w (valVec n feats v) = (feats.map fun f => f.coef * v f).sum := by
  rw [dot_mapIdx _ _ (by rw [valVec_length, hw])]
  unfold valVec
  rw [npPut_sum (fun j v => w.getD j 0 * v) (by simp) (nodup_pairs hok _) (pairs_lt hok _), List.map_map]
  congr 1
  apply List.map_congr_left
  intro f hf
  simp [List.getD_eq_getElem?_getD, hc f hf]

theorem valVec_near {n : ℕ} {feats : List (Feat K)} (hok : FeatsOK n feats) {v v' : Feat K → K} {r : K} (hr : 0 ≤ r)
    (h : ∀ f ∈ feats, |v f - v' f| ≤ r) : Near r (valVec n feats v) (valVec n feats v') := by
  refine ⟨by rw [valVec_length, valVec_length], fun j => ?_⟩
  by_cases hf : ∃ f ∈ feats, f.idx = j
  · obtain ⟨f, hf, rfl⟩ := hf
    have h1 : (valVec n feats v)[f.idx]? = some (v f) := put_feat hok v hf
    have h2 : (valVec n feats v')[f.idx]? = some (v' f) := put_feat hok v' hf
    rw [List.getD_eq_getElem?_getD, List.getD_eq_getElem?_getD, h1, h2]
    exact h f hf
  · push Not at hf
    by_cases hj : j < n
    · have h1 : (valVec n feats v)[j]? = some 0 := put_other v hj hf
      have h2 : (valVec n feats v')[j]? = some 0 := put_other v' hj hf
      rw [List.getD_eq_getElem?_getD, List.getD_eq_getElem?_getD, h1, h2]
      simpa using hr
    · rw [List.getD_eq_default _ _ (by rw [valVec_length]; omega),
        List.getD_eq_default _ _ (by rw [valVec_length]; omega)]
      simpa using hr

/-- What one reported point says, whatever the history. -/
theorem tolerance_core (hso : SetOrderOk ext) {ε δ : K} (ho : o.SoundUpTo ε δ) (hε : 0 ≤ ε) (hδ : 0 ≤ δ)
    (hr : b0.Reachable ext) (hx : b0.setX ext x = (b1, .ok ())) (hk : Keeps b1 b) {σ : Var → K}
    (hrep : (b.solve o).reported = some σ) {N : ℕ} {R : K} (hN : GridSizes N b0.aset)
    (hR : ChangesWithin R b0.aset x) (ht : (N : K) * δ + ε < 1) :
    ∃ feats κ m, b0.buildInfo ext x = .ok feats ∧ buildMip b0.backend (b0.buildArgs x feats) = .ok m ∧
      NearChoice δ feats κ σ ∧
      (∃ m', b.mip = some m' ∧ m'.Contains m ∧ m'.FeasibleUpTo ε δ σ) ∧
      (∀ f ∈ feats, f.actions.length ≤ N) ∧ feats.length ≤ N ∧
      (b.solve o).solutionInfo.feasible = true ∧
      (b.solve o).solutionInfo.actions = some (valVec b0.coefs.length feats fun f => σ (.a f.idx)) ∧
      NearRecourse ε (ε + (N : K) * δ * R) b0.aset b0.coefs b0.intercept x
        (valVec b0.coefs.length feats fun f => σ (.a f.idx)) (actVec b0.coefs.length feats κ)
        (max b0.minItems 1) b0.maxItems := by
  obtain ⟨feats, m, hxl, hbi, hm, rfl⟩ := setX_ok hx
  have hok := buildInfo_ok hso hr.ok hbi
  obtain ⟨hnd, hxn, hspec, -⟩ := buildInfo_spec hso hr.ok hbi
  obtain ⟨m', hm', hc⟩ := hk.mip m rfl
  have hσ := reported_upTo ho hm' hrep
  have hN1 : ∀ f ∈ feats, f.actions.length ≤ N := by
    intro f hf
    obtain ⟨e, xj, t, T, hs⟩ := hspec f hf
    have := hs.actions_length
    have := hN.2 e (List.mem_of_getElem? hs.elem)
    omega
  have hfl : feats.length ≤ N := by
    have h1 : feats.length ≤ b0.coefs.length := by
      have := List.nodup_iff_injective_getElem.mp hok.nodup
      have hsub : (feats.map (·.idx)) ⊆ List.range b0.coefs.length := by
        intro j hj
        obtain ⟨f, hf, rfl⟩ := List.mem_map.mp hj
        exact List.mem_range.mpr (hok.lt f hf)
      have := (List.subperm_of_subset hok.nodup hsub).length_le
      simpa using this
    have := hr.ok.coefs
    have := hN.1
    omega
  have hlim : ∀ c ∈ (b0.buildArgs x feats).limits, c.indices.length ≤ N := by
    intro c hcm
    have hw := hr.ok.aset.wf.cons c hcm
    have h1 := congrArg List.length hw.position
    rw [List.length_map, List.length_map] at h1
    have h2 := (List.subperm_of_subset hw.distinct hw.known).length_le
    have := hN.1
    omega
  obtain ⟨κ, hκ⟩ := near_choice (p := b0.buildArgs x feats) hm hok hc hσ hδ hN1 ht
  obtain ⟨hlo, hhi, hlims⟩ := near_conditions (p := b0.buildArgs x feats) hm hok hc hσ hδ hκ hfl hlim ht
  refine ⟨feats, κ, m, hbi, hm, hκ, ⟨m', hm', hc, hσ⟩, hN1, hfl, ?_, ?_, ?_, ?_, ?_, ?_, ?_, ?_⟩
  · unfold Builder.solutionInfo
    rw [hrep, (solve_fields o b).2.2.2.2.2.1, hm']
  · unfold Builder.solutionInfo
    rw [hrep, (solve_fields o b).2.2.2.2.2.1, hm']
    simp only [(SameFixed.solve o b).feats, (SameFixed.solve o b).coefs, hk.feats, hk.coefs, List.zip_map']
    rfl
  · -- score
    have hs := hσ.cons (scoreCon b0.aset.yDesired (b0.score x) feats) (hc.cons _ (by
      obtain ⟨lims, -, -, rfl⟩ := buildMip_ok hm
      simp [Builder.buildArgs]))
    have hd : dot b0.coefs (vadd x (valVec b0.coefs.length feats fun f => σ (.a f.idx))) + b0.intercept
        = b0.score x + (feats.map fun f => f.coef * σ (.a f.idx)).sum := by
      rw [dot_vadd _ _ _ (by rw [valVec_length, hxl]), valVec_dot hok _ rfl (fun f hf => by
        obtain ⟨_, _, _, _, hs⟩ := hspec f hf
        exact hs.coef)]
      unfold Builder.score; ring
    have e : evalLin σ (feats.map fun f => (Var.a f.idx, f.coef)) = (feats.map fun f => f.coef * σ (.a f.idx)).sum := by
      rw [evalLin_map]
    unfold scoreCon LinCon.SatUpTo at hs
    unfold ReachesScoreUpTo
    dsimp only at hs
    rw [e] at hs
    rw [hd]
    by_cases hy : 0 < b0.aset.yDesired
    · rw [if_pos hy] at hs ⊢; dsimp only at hs; linarith
    · rw [if_neg hy] at hs ⊢; dsimp only at hs; linarith
  · refine valVec_near hok (by
      have := mul_nonneg (mul_nonneg (Nat.cast_nonneg (α := K) N) hδ) hR.1
      linarith) (fun f hf => ?_)
    obtain ⟨e, xj, t, T, hs⟩ := hspec f hf
    refine near_action (p := b0.buildArgs x feats) hm hok hc hσ hδ hκ hR.1 hf (hN1 f hf) (fun a ha => ?_)
    obtain ⟨k, hkl, hke⟩ := List.mem_iff_getElem.mp ha
    have hp := hs.permitted hr.ok (κ := fun _ => k) (by exact hkl)
    have hact : f.act (fun _ => k) = a := by
      unfold Feat.act; rw [List.getD_eq_getElem _ _ hkl]; exact hke
    rw [hact] at hp
    have := hR.2 f.idx e xj (xj + a) hs.elem hs.val hp
    rwa [add_sub_cancel_left] at this
  · exact choice_permitted hso hr.ok hbi hκ.1
  · unfold numChanged; rw [actVec_countP hok hκ.1]; exact hlo
  · unfold numChanged; rw [actVec_countP hok hκ.1]; exact hhi
  · intro hla
    exact (limits_iff hso hr.ok hbi hla hκ.1).mp hlims

/-- A feasible answer of `fit` was read from a reported point. -/
theorem fit_reported {o : Oracle K} {b b' : Builder K} {i : Info K} (hf : b.fit o = .ok (b', i)) (hi : i.feasible = true) :
    ∃ σ, (b.solve o).reported = some σ ∧ i = (b.solve o).solutionInfo := by
  obtain ⟨-, -, rfl⟩ := fit_ok hf
  cases h : (b.solve o).reported with
  | none => unfold Builder.solutionInfo at hi; rw [h] at hi; cases hi
  | some σ => exact ⟨σ, rfl, rfl⟩

/-- **C102.**  The guarantees of C22 and C35 survive the tolerances of real solvers.  Let the solver satisfy constraints and
bounds up to `ε` and integrality up to `δ`, with `N · δ + ε < 1` for an `N` that bounds the number of columns and is larger than
every grid, and let no permitted change be larger than `R`.  Then whatever fits, enumerations and changes of the
action set came before, a feasible answer of `fit()` misses the desired score by at most `ε` and differs in each feature
by at most `ε + N · δ · R` from an action that is permitted, changes between `max(min_items, 1)` and `max_items`
features, and respects the subset limits where they apply. -/
theorem C102_tolerance (hso : SetOrderOk ext) {ε δ : K} (ho : o.SoundUpTo ε δ) (hε : 0 ≤ ε) (hδ : 0 ≤ δ)
    (hr : b0.Reachable ext) (hx : b0.setX ext x = (b1, .ok ())) (ha : b1.After o b) (hf : b.fit o = .ok (b', i))
    (hi : i.feasible = true) {N : ℕ} {R : K} (hN : GridSizes N b0.aset) (hR : ChangesWithin R b0.aset x)
    (ht : (N : K) * δ + ε < 1) :
    ∃ a a', i.actions = some a ∧ NearRecourse ε (ε + (N : K) * δ * R) b0.aset b0.coefs b0.intercept x a a'
      (max b0.minItems 1) b0.maxItems := by
  obtain ⟨σ, hrep, rfl⟩ := fit_reported hf hi
  obtain ⟨feats, κ, m, -, -, -, -, -, -, -, h2, h3⟩ := tolerance_core hso ho hε hδ hr hx (Keeps.after ha) hrep hN hR ht
  exact ⟨_, _, h2, h3⟩

/-- C102 for the items of `populate`. -/
theorem C102_items (hso : SetOrderOk ext) {ε δ : K} (ho : o.SoundUpTo ε δ) (hε : 0 ≤ ε) (hδ : 0 ≤ δ)
    (hr : b0.Reachable ext) (hx : b0.setX ext x = (b1, .ok ())) (ha : b1.After o b) {et : EnumType} {fuel : ℕ}
    {total : Option ℕ} {items : List (Info K)} (hp : b.populate o et fuel total = .ok (some (b', items)))
    {N : ℕ} {R : K} (hN : GridSizes N b0.aset) (hR : ChangesWithin R b0.aset x) (ht : (N : K) * δ + ε < 1) :
    ∀ i ∈ items, i.feasible = true ∧ ∃ a a', i.actions = some a ∧
      NearRecourse ε (ε + (N : K) * δ * R) b0.aset b0.coefs b0.intercept x a a' (max b0.minItems 1) b0.maxItems := by
  intro i hi
  obtain ⟨-, -, hl⟩ := populate_ok hp
  obtain ⟨-, l', h1, h2⟩ := (Keeps.after ha).popLoop hl
  rw [List.nil_append] at h1
  subst h1
  obtain ⟨c, σ, hk, hrep, rfl⟩ := h2 i hi
  obtain ⟨feats, κ, m, -, -, -, -, -, -, h1, h2, h3⟩ := tolerance_core hso ho hε hδ hr hx hk hrep hN hR ht
  exact ⟨h1, _, _, h2, h3⟩

/-- Sum of the sizes of the coefficients. -/
def coefSize (w : List K) : K := (w.map fun v => |v|).sum

theorem dot_near {r : K} : ∀ (w a a' : List K), Near r a a' → |dot w a - dot w a'| ≤ coefSize w * r := by
  intro w
  induction w with
  | nil => intro a a' _; simp [dot, coefSize]
  | cons u w ih =>
    intro a a' h
    have h0 : 0 ≤ r := (abs_nonneg _).trans (h.2 0)
    have hw : 0 ≤ coefSize (u :: w) * r := by
      apply mul_nonneg _ h0
      unfold coefSize
      apply List.sum_nonneg
      intro v hv
      obtain ⟨z, -, rfl⟩ := List.mem_map.mp hv
      exact abs_nonneg z
    cases a with
    | nil =>
      cases a' with
      | nil => simpa [dot] using hw
      | cons v' a' => simp [Near] at h
    | cons v a =>
      cases a' with
      | nil => simp [Near] at h
      | cons v' a' =>
        have h1 := ih a a' ⟨by simpa using h.1, fun j => by simpa using h.2 (j + 1)⟩
        have h2 : |v - v'| ≤ r := by simpa using h.2 0
        have e : dot (u :: w) (v :: a) - dot (u :: w) (v' :: a') = u * (v - v') + (dot w a - dot w a') := by
          simp only [dot, List.zipWith_cons_cons, List.sum_cons]; ring
        rw [e]
        have h3 : |u * (v - v')| ≤ |u| * r := by
          rw [abs_mul]; exact mul_le_mul_of_nonneg_left h2 (abs_nonneg u)
        have h4 := abs_add_le (u * (v - v')) (dot w a - dot w a')
        have h5 : coefSize (u :: w) = |u| + coefSize w := by simp [coefSize]
        rw [h5, add_mul]
        linarith

/-- Rounding gives recourse: if no permitted action has a score within `ε + (Σ|w|) · (ε + N · δ · R)` of 0 (nobody is borderline),
the permitted action close to the answer is recourse, as in C22 and C35. -/
theorem C102_rounded (hso : SetOrderOk ext) {ε δ : K} (ho : o.SoundUpTo ε δ) (hε : 0 ≤ ε) (hδ : 0 ≤ δ)
    (hr : b0.Reachable ext) (hx : b0.setX ext x = (b1, .ok ())) (ha : b1.After o b) (hf : b.fit o = .ok (b', i))
    (hi : i.feasible = true) {N : ℕ} {R : K} (hN : GridSizes N b0.aset) (hR : ChangesWithin R b0.aset x)
    (ht : (N : K) * δ + ε < 1)
    (hm : ∀ a, PermittedAction b0.aset x a →
      ε + coefSize b0.coefs * (ε + (N : K) * δ * R) < |dot b0.coefs (vadd x a) + b0.intercept|) :
    ∃ a a', i.actions = some a ∧ Near (ε + (N : K) * δ * R) a a' ∧
      IsRecourse b0.aset b0.coefs b0.intercept x a' (max b0.minItems 1) b0.maxItems ∧
      (LimitsApply b0.aset x → RespectsLimits b0.aset x a') := by
  obtain ⟨a, a', h1, h2⟩ := C102_tolerance hso ho hε hδ hr hx ha hf hi hN hR ht
  refine ⟨a, a', h1, h2.near, ⟨h2.permitted, h2.min, h2.max, ?_⟩, h2.limits⟩
  have hb := hm a' h2.permitted
  have hla' : a'.length = x.length := h2.permitted.1
  have hla : a.length = x.length := h2.near.1.trans hla'
  have hn := dot_near b0.coefs a a' h2.near
  have hs := h2.score
  unfold ReachesScoreUpTo at hs
  unfold ReachesScore
  rw [dot_vadd _ _ _ hla.symm] at hs
  rw [dot_vadd _ _ _ hla'.symm] at hb ⊢
  obtain ⟨hn1, hn2⟩ := abs_le.mp hn
  by_cases hy : 0 < b0.aset.yDesired
  · rw [if_pos hy] at hs ⊢
    by_contra hc
    push Not at hc
    rw [abs_of_neg hc] at hb
    linarith
  · rw [if_neg hy] at hs ⊢
    by_contra hc
    push Not at hc
    rw [abs_of_pos hc] at hb
    linarith

/-- An exact solver is one with tolerances 0. -/
theorem C102_exact (ho : o.Sound) : o.SoundUpTo 0 0 := by
  intro k m
  have h := ho k m
  have hcon : ∀ (c : LinCon K) (σ : Var → K), c.Sat σ → c.SatUpTo 0 σ := by
    intro c σ hc
    unfold LinCon.Sat at hc
    unfold LinCon.SatUpTo
    cases hs : c.sense with
    | le => rw [hs] at hc; dsimp only at hc ⊢; linarith
    | ge => rw [hs] at hc; dsimp only at hc ⊢; linarith
    | eq => rw [hs] at hc; dsimp only at hc ⊢; rw [hc]; simp
    | range r => rw [hs] at hc; dsimp only at hc ⊢; exact ⟨by linarith [hc.1], by linarith [hc.2]⟩
  have hfeas : ∀ σ, m.Feasible σ → m.FeasibleUpTo 0 0 σ := by
    intro σ hσ
    refine ⟨fun d hd => ?_, fun c hc => hcon c σ (hσ.cons c hc), fun s hs v hv v' hv' h1 h2 => ?_⟩
    · obtain ⟨h1, h2, h3⟩ := hσ.decls d hd
      refine ⟨by linarith, fun u hu => by linarith [h2 u hu], fun hb => ?_⟩
      rcases h3 hb with h | h <;> rw [h] <;> simp
    · exact hσ.sos s hs v hv v' hv' (abs_pos.mp h1) (abs_pos.mp h2)
  cases hk : o k m with
  | optimal σ =>
    rw [hk] at h; dsimp only at h ⊢
    exact ⟨hfeas σ h.1, fun τ hτ => by linarith [h.2 τ hτ]⟩
  | feasible σ => rw [hk] at h; dsimp only at h ⊢; exact hfeas σ h
  | infeasible => rw [hk] at h; exact h
  | unknown => trivial

/-- With tolerances 0 the conclusion of C102 is that of C22: the action itself is recourse. -/
theorem C102_zero {A : ActionSet K} {w : List K} {t : K} {x a a' : List K} {lo hi : ℕ}
    (h : NearRecourse 0 0 A w t x a a' lo hi) : IsRecourse A w t x a lo hi := by
  have : a = a' := by
    apply List.ext_getElem h.near.1
    intro j h1 h2
    have := h.near.2 j
    rw [List.getD_eq_getElem _ _ h1, List.getD_eq_getElem _ _ h2] at this
    have := abs_eq_zero.mp (le_antisymm this (abs_nonneg _))
    linarith
  subst this
  refine ⟨h.permitted, h.min, h.max, ?_⟩
  have := h.score
  unfold ReachesScoreUpTo at this
  unfold ReachesScore
  rw [neg_zero] at this
  exact this

/-- The costs of the offered moves are bounded. -/
theorem feat_costs_within (hso : SetOrderOk ext) (hb : BuilderOK ext b) {feats : List (Feat K)}
    (h : b.buildInfo ext x = .ok feats) (hlog : LogOk ext)
    (hp : b.costType = .loc → ∀ e ∈ b.aset.elems, ∀ v p, e.percentile ext v = .ok p → p < 1) {C : K}
    (hC : CostsWithin C ext b.costType b.aset x) : ∀ f ∈ feats, ∀ c ∈ f.costs, |c| ≤ C := by
  obtain ⟨-, -, hspec, -⟩ := buildInfo_spec hso hb h
  have hok := buildInfo_ok hso hb h
  intro f hf c hc
  obtain ⟨e, xj, t, T, hs⟩ := hspec f hf
  obtain ⟨k, hkl, hke⟩ := List.mem_iff_getElem.mp hc
  have hl := hok.len f hf
  have hget : f.costs.getD k 0 = c := by rw [List.getD_eq_getElem _ _ hkl]; exact hke
  rcases Nat.eq_zero_or_pos k with rfl | hk
  · have h0 := hok.c0 f hf
    rw [List.getD_eq_getElem _ _ hkl] at h0
    rw [← hke, h0, abs_zero]; exact hC.1
  · have hpos := hok.cpos f hf k hk hkl
    rw [hget] at hpos
    rw [abs_of_pos hpos]
    have hm := hs.moveCost hb hlog (fun hl => hp hl e (List.mem_of_getElem? hs.elem)) (κ := fun _ => k)
      (by rw [hl]; exact hkl) (by omega)
    have hperm := hs.permitted hb (κ := fun _ => k) (by rw [hl]; exact hkl)
    have hcst : f.cst (fun _ => k) = c := hget
    rw [hcst] at hm
    exact hC.2 f.idx e xj _ c hs.elem hs.val hperm hm

/-- **C102, costs, cost types with a sum.**  The reported cost is within `N² · δ · C` of the cost of the permitted action
close to the answer, where no permitted change costs more than `C`. -/
theorem C102_cost (hso : SetOrderOk ext) {ε δ : K} (ho : o.SoundUpTo ε δ) (hε : 0 ≤ ε) (hδ : 0 ≤ δ)
    (hr : b0.Reachable ext) (hx : b0.setX ext x = (b1, .ok ())) (ha : b1.After o b) (hf : b.fit o = .ok (b', i))
    (hi : i.feasible = true) {N : ℕ} {R C : K} (hN : GridSizes N b0.aset) (hR : ChangesWithin R b0.aset x)
    (ht : (N : K) * δ + ε < 1) (hlog : LogOk ext)
    (hp : b0.costType = .loc → ∀ e ∈ b0.aset.elems, ∀ v p, e.percentile ext v = .ok p → p < 1)
    (hC : CostsWithin C ext b0.costType b0.aset x) (hct : b0.costType ≠ .max) :
    ∃ a a' cs c, i.actions = some a ∧ NearRecourse ε (ε + (N : K) * δ * R) b0.aset b0.coefs b0.intercept x a a'
      (max b0.minItems 1) b0.maxItems ∧ ActionCosts ext b0.costType b0.aset x a' cs ∧
      i.cost = .fin c ∧ |c - cs.sum| ≤ (N : K) * ((N : K) * δ * C) := by
  obtain ⟨σ, hrep, rfl⟩ := fit_reported hf hi
  have hk := Keeps.after ha
  obtain ⟨feats, κ, m, hbi, hm, hκ, ⟨m', hm', hc, hσ⟩, hN1, hfl, -, h2, h3⟩ :=
    tolerance_core hso ho hε hδ hr hx hk hrep hN hR ht
  have hok := buildInfo_ok hso hr.ok hbi
  have hb := feat_costs_within hso hr.ok hbi hlog hp hC
  refine ⟨_, _, cstVec b0.coefs.length feats κ, m'.objVal σ, h2, h3,
    choice_actionCosts hso hr.ok hbi hlog hp hκ.1, ?_, ?_⟩
  · obtain ⟨feats', m'', -, -, -, rfl⟩ := setX_ok hx
    have hct' : (b.solve o).costType ≠ .max := by
      rw [(SameFixed.solve o b).costType, hk.costType]; exact hct
    unfold Builder.solutionInfo
    rw [hrep, (solve_fields o b).2.2.2.2.2.1, hm']
    simp only [if_neg hct']
  · rw [cstVec_sum hok]
    exact near_objective (p := b0.buildArgs x feats) hm hok hc hδ hκ hC.1 hN1 hfl hb hct

/-- **C102, costs, cost type `max`.**  The reported vector of costs is within `ε + N · δ · C` of the costs of the
permitted action close to the answer, and the reported cost is not less than any of these by more than
`2 · ε + N · δ · C`. -/
theorem C102_max_cost (hso : SetOrderOk ext) {ε δ : K} (ho : o.SoundUpTo ε δ) (hε : 0 ≤ ε) (hδ : 0 ≤ δ)
    (hr : b0.Reachable ext) (hx : b0.setX ext x = (b1, .ok ())) (ha : b1.After o b) (hf : b.fit o = .ok (b', i))
    (hi : i.feasible = true) {N : ℕ} {R C : K} (hN : GridSizes N b0.aset) (hR : ChangesWithin R b0.aset x)
    (ht : (N : K) * δ + ε < 1) (hlog : LogOk ext) (hC : CostsWithin C ext b0.costType b0.aset x)
    (hct : b0.costType = .max) :
    ∃ a a' cs ks c, i.actions = some a ∧ NearRecourse ε (ε + (N : K) * δ * R) b0.aset b0.coefs b0.intercept x a a'
      (max b0.minItems 1) b0.maxItems ∧ ActionCosts ext b0.costType b0.aset x a' cs ∧
      i.costs = some ks ∧ Near (ε + (N : K) * δ * C) ks cs ∧
      i.cost = .fin c ∧ ∀ v ∈ cs, v ≠ 0 → v - (2 * ε + (N : K) * δ * C) ≤ c := by
  obtain ⟨σ, hrep, rfl⟩ := fit_reported hf hi
  have hk := Keeps.after ha
  obtain ⟨feats, κ, m, hbi, hm, hκ, ⟨m', hm', hc, hσ⟩, hN1, hfl, -, h2, h3⟩ :=
    tolerance_core hso ho hε hδ hr hx hk hrep hN hR ht
  have hok := buildInfo_ok hso hr.ok hbi
  have hp : b0.costType = .loc → ∀ e ∈ b0.aset.elems, ∀ v p, e.percentile ext v = .ok p → p < 1 := by
    intro h; rw [hct] at h; cases h
  have hb := feat_costs_within hso hr.ok hbi hlog hp hC
  have hv : ∀ f ∈ feats, |σ (.c f.idx) - f.cst κ| ≤ ε + (N : K) * δ * C ∧ σ (.c f.idx) ≤ σ .maxCost + ε :=
    fun f hf => near_costVar (p := b0.buildArgs x feats) hm hok hc hσ hδ hκ hC.1 hf (hN1 f hf) (hb f hf) hct
  have hct' : (b.solve o).costType = .max := by
    obtain ⟨feats', m'', -, -, -, rfl⟩ := setX_ok hx
    rw [(SameFixed.solve o b).costType, hk.costType]; exact hct
  have hfeats : (b.solve o).feats = feats ∧ (b.solve o).coefs = b0.coefs := by
    obtain ⟨feats', m'', -, hbi', -, rfl⟩ := setX_ok hx
    rw [(SameFixed.solve o b).feats, hk.feats, (SameFixed.solve o b).coefs, hk.coefs]
    rw [hbi] at hbi'; cases hbi'
    exact ⟨rfl, rfl⟩
  refine ⟨_, _, cstVec b0.coefs.length feats κ, valVec b0.coefs.length feats fun f => σ (.c f.idx), σ .maxCost, h2, h3,
    choice_actionCosts hso hr.ok hbi hlog hp hκ.1, ?_, ?_, ?_, ?_⟩
  · unfold Builder.solutionInfo
    rw [hrep, (solve_fields o b).2.2.2.2.2.1, hm']
    simp only [hct', if_true, hfeats.1, hfeats.2, List.zip_map']
    rfl
  · exact valVec_near hok (by
      have := mul_nonneg (mul_nonneg (Nat.cast_nonneg (α := K) N) hδ) hC.1
      linarith) (fun f hf => (hv f hf).1)
  · unfold Builder.solutionInfo
    rw [hrep, (solve_fields o b).2.2.2.2.2.1, hm']
    simp only [hct', if_true]
  · intro v hvm hv0
    obtain ⟨j, hj, rfl⟩ := List.mem_iff_getElem.mp hvm
    have hjn : j < b0.coefs.length := by rw [cstVec_length] at hj; exact hj
    by_cases hf : ∃ f ∈ feats, f.idx = j
    · obtain ⟨f, hf, rfl⟩ := hf
      have h4 : (cstVec b0.coefs.length feats κ)[f.idx]? = some (f.cst κ) := put_feat hok (fun f => f.cst κ) hf
      rw [List.getElem?_eq_getElem hj] at h4
      rw [Option.some.inj h4]
      obtain ⟨h5, h6⟩ := hv f hf
      have := (abs_le.mp h5).1
      linarith
    · push Not at hf
      have h4 : (cstVec b0.coefs.length feats κ)[j]? = some 0 := put_other (fun f : Feat K => f.cst κ) hjn hf
      rw [List.getElem?_eq_getElem hj] at h4
      exact absurd (Option.some.inj h4) hv0

end Recourse
