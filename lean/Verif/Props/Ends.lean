import Verif.Props.Fresh
import Verif.Props.Optimal
import Verif.Props.Audit
import Verif.Lemmas.Exec
import Mathlib.Tactic.FinCases

/-!
# C89: recourse over a new action set is decided by the ends of the grids
-/

set_option linter.unusedSectionVars false

namespace Recourse

variable {K : Type} [Field K] [LinearOrder K] [IsStrictOrderedRing K] [FloorRing K]

/-- The most favourable values: the last grid value of a feature whose coefficient has the sign of the desired
outcome, and the first grid value of the others. -/
def bestPoint (A : ActionSet K) (w : List K) : List K :=
  List.zipWith (fun e c => if 0 < (A.yDesired : K) * c then e.grid.vals.getLastD 0 else e.grid.vals.headD 0) A.elems w

section
variable {ext : Ext K} {X : List (List K)} {names : List String} {y : Int} {custom : List (String × PyVal K)}
  {dflt st : PyVal K} {A : ActionSet K} {be : Backend} {ct : CostType} {w : List K} {t : K} {b b1 b2 b3 : Builder K}
  {x : List K} {o : Oracle K} {i : Info K}

theorem best_mem {e : Elem K} (h : e.grid.vals ≠ []) (p : Prop) [Decidable p] :
    (if p then e.grid.vals.getLastD 0 else e.grid.vals.headD 0) ∈ e.grid.vals := by
  cases hv : e.grid.vals with
  | nil => exact absurd hv h
  | cons u l =>
    split
    · rw [List.getLastD_cons]; 
      cases l with
      | nil => simp
      | cons v l =>
        rw [List.getLastD_eq_getLast?, List.getLast?_eq_getLast_of_ne_nil (by simp), Option.getD_some]
        exact List.mem_cons_of_mem _ (List.getLast_mem _)
    · simp

/-- **C89**: ends of the grids.  Over a new action set, for a rejected person within the grids and an exact solver,
the answer is feasible exactly if the most favourable point is approved. -/
theorem C89_ends (hso : SetOrderOk ext) (hlog : LogIncreasing ext) (ho : o.Exact)
    (hA : mkActionSet X names y custom dflt st = .ok A) (hb : mkBuilder be ct A w t = .ok b)
    (hk : PositiveDensity ext) (hx : WithinGrids A x) (hden : Denied b x)
    (hs : b.setX ext x = (b1, .ok ())) (ha : b1.Refitted o b2) (hf : b2.fit o = .ok (b3, i)) :
    i.feasible = true ↔ 0 ≤ (A.yDesired : K) * (dot w (bestPoint A w) + t) := by
  have hr : b.Reachable ext := .mk (.mk hA) hb
  obtain ⟨hn, hcons, hy, hwl, hel⟩ := fresh_elem hA hb
  obtain ⟨-, hcf, hint, hct, -, hmin, -⟩ := mkBuilder_parts hb
  obtain ⟨hoff, -, -, -, -, -, hmax⟩ := mkBuilder_offers (ext := ext) (.mk hA) hb
  obtain ⟨-, -, -, -, -, hAn, hAl, -, hy1, -, hAel⟩ := C17_construction hA
  have hlen : b.aset.elems.length = names.length := by rw [hr.ok.aset.wf.length, hn]
  have hxl : x.length = names.length := by
    obtain ⟨-, -, h, -⟩ := setX_ok hs
    rw [h, hcf, hwl]
  have hna : numActionable b.aset ≤ b.maxItems := by rw [hmax, hoff.numActionable]
  have hinv : ∀ e ∈ A.elems, e.grid.vals ≠ [] ∧ e.grid.vals.Pairwise (· < ·) := by
    intro e he
    have := ((ActionSet.Reachable.mk hA : A.Reachable ext).wf.elems e he).inv
    exact ⟨this.2.ne, this.2.sorted⟩
  have key := (C25_no_recourse hso hlog.ok ho hr (fresh_regular hA hb hk hx) hden hs ha hf).2 hna
  have hbl : (bestPoint A w).length = names.length := by
    unfold bestPoint; rw [List.length_zipWith, hAl, hwl, min_self]
  have hbest : ∀ (j : ℕ) (e : Elem K) (c v : K), A.elems[j]? = some e → w[j]? = some c → (bestPoint A w)[j]? = some v →
      v = if 0 < (A.yDesired : K) * c then e.grid.vals.getLastD 0 else e.grid.vals.headD 0 := by
    intro j e c v he hc hv
    unfold bestPoint at hv
    rw [List.getElem?_zipWith, he, hc] at hv
    exact (Option.some.inj hv).symm
  have hgo : (∃ a, PermittedAction b.aset x a ∧ RespectsLimits b.aset x a ∧ ReachesScore A.yDesired w t x a) ↔
      0 ≤ (A.yDesired : K) * (dot w (bestPoint A w) + t) := by
    constructor
    · rintro ⟨a, hp, -, hreach⟩
      unfold ReachesScore at hreach
      rw [reaches_iff hy1] at hreach
      have hle : (A.yDesired : K) * dot w (vadd x a) ≤ (A.yDesired : K) * dot w (bestPoint A w) := by
        refine dot_le ?_ (by rw [hbl, hwl]) ?_
        · unfold vadd; rw [List.length_zipWith, hp.1, min_self, hxl, hwl]
        · intro j c u v hc hu hv
          unfold vadd at hu
          obtain ⟨xj, aj, hxj, haj, rfl⟩ := List.getElem?_zipWith_eq_some.mp hu
          have hj : j < names.length := by rw [← hxl]; exact (List.getElem?_eq_some_iff.mp hxj).1
          obtain ⟨e, he⟩ : ∃ e, b.aset.elems[j]? = some e := ⟨_, List.getElem?_eq_getElem (by rw [hlen]; exact hj)⟩
          obtain ⟨e0, c', he0, hc', rfl, -, hact, hdir⟩ := hel j e he
          rw [hc] at hc'; cases hc'
          have hv := hbest j e0 c v he0 hc hv
          obtain ⟨hne, hsort⟩ := hinv e0 (List.mem_of_getElem? he0)
          have hper := hp.2 j _ xj aj he hxj haj
          obtain ⟨-, -, ⟨lo, hlo, hlo'⟩, hi, hhi, hhi'⟩ := hx j e0 xj he0 hxj
          have h1 : e0.grid.vals.headD 0 ≤ xj + aj := by
            rcases hper with h | ⟨-, h, -⟩
            · rw [h]; exact (headD_le_of_sorted hsort hlo).trans hlo'
            · exact headD_le_of_sorted hsort h
          have h2 : xj + aj ≤ e0.grid.vals.getLastD 0 := by
            rcases hper with h | ⟨-, h, -⟩
            · rw [h]; exact hhi'.trans (le_getLastD_of_sorted hsort hhi)
            · exact le_getLastD_of_sorted hsort h
          rw [hv, ← mul_assoc, ← mul_assoc]
          split
          · rename_i hpos; exact mul_le_mul_of_nonneg_left h2 hpos.le
          · rename_i hneg; exact mul_le_mul_of_nonpos_left h1 (not_lt.mp hneg)
      nlinarith
    · intro h
      have hv : vadd x (List.zipWith (· - ·) (bestPoint A w) x) = bestPoint A w := by
        apply List.ext_getElem?
        intro j
        unfold vadd
        rw [List.getElem?_zipWith, List.getElem?_zipWith]
        by_cases hj : j < names.length
        · rw [List.getElem?_eq_getElem (by rw [hxl]; exact hj), List.getElem?_eq_getElem (by rw [hbl]; exact hj)]
          simp
        · rw [List.getElem?_eq_none (by rw [hxl]; omega), List.getElem?_eq_none (by rw [hbl]; omega)]
      refine ⟨List.zipWith (· - ·) (bestPoint A w) x, ⟨?_, ?_⟩, ?_, ?_⟩
      · rw [List.length_zipWith, hbl, hxl, min_self]
      · intro j e xj aj he hxj haj
        obtain ⟨e0, c, he0, hc, rfl, -, hact, hdir⟩ := hel j e he
        obtain ⟨u, xj', hu, hxj', rfl⟩ := List.getElem?_zipWith_eq_some.mp haj
        rw [hxj] at hxj'; cases hxj'
        refine Or.inr ⟨hact, ?_, ?_⟩
        · rw [add_sub_cancel, hbest j e0 c u he0 hc hu]
          exact best_mem (hinv e0 (List.mem_of_getElem? he0)).1 _
        · rw [show Elem.stepDir _ = e0.stepDir from rfl, hdir]
          exact ⟨fun h => absurd h (by simp), fun h => absurd h (by simp)⟩
      · intro k hk
        rw [hcons] at hk; cases hk
      · unfold ReachesScore
        rw [reaches_iff hy1, hv]
        exact h
  rw [hcf, hint, hy, hgo] at key
  cases hfe : i.feasible with
  | true =>
    simp only [true_iff]
    by_contra hc
    have := key.mpr hc
    rw [hfe] at this; cases this
  | false =>
    simp only [reduceCtorEq, false_iff]
    exact key.mp hfe

/-- **C89**, all or none.  Over a new action set, with one classifier and exact solvers, either every rejected person
within the grids is told that there is recourse or none is, with any back ends, cost types, and earlier fits. -/
theorem C89_all_or_none {be' : Backend} {ct' : CostType} {b' b1' b2' b3' : Builder K} {x' : List K} {o' : Oracle K}
    {i' : Info K} (hso : SetOrderOk ext) (hlog : LogIncreasing ext) (ho : o.Exact) (ho' : o'.Exact)
    (hA : mkActionSet X names y custom dflt st = .ok A) (hk : PositiveDensity ext)
    (hb : mkBuilder be ct A w t = .ok b) (hx : WithinGrids A x) (hden : Denied b x)
    (hs : b.setX ext x = (b1, .ok ())) (ha : b1.Refitted o b2) (hf : b2.fit o = .ok (b3, i))
    (hb' : mkBuilder be' ct' A w t = .ok b') (hx' : WithinGrids A x') (hden' : Denied b' x')
    (hs' : b'.setX ext x' = (b1', .ok ())) (ha' : b1'.Refitted o' b2') (hf' : b2'.fit o' = .ok (b3', i')) :
    i.feasible = i'.feasible := by
  rw [Bool.eq_iff_iff, C89_ends hso hlog ho hA hb hk hx hden hs ha hf,
    C89_ends hso hlog ho' hA hb' hk hx' hden' hs' ha' hf']

/-! ## Data of zeros and ones -/

/-- Only zeros and ones. -/
def ZeroOne (l : List K) : Prop := ∀ v ∈ l, v = 0 ∨ v = 1

theorem binary_elems (hA : mkActionSet X names y [] dflt st = .ok A) (hX : ∀ r ∈ X, ZeroOne r) :
    ∀ e ∈ A.elems, e.grid.vals = [0, 1] ∧ e.grid.isInt = false := by
  intro e he
  obtain ⟨j, hj⟩ := List.mem_iff_getElem?.mp he
  obtain ⟨-, -, -, -, hlen, -, -, -, -, -, hel⟩ := C17_construction hA
  obtain ⟨hn, -, hvt, -, -, -, hg⟩ := hel j e hj
  have hcol : ∀ r ∈ X, r[j]? = some (r.getD j 0) ∧ r.getD j 0 ∈ r := by
    intro r hr
    have : j < r.length := by rw [hlen r hr]; exact (List.getElem?_eq_some_iff.mp hn).1
    rw [List.getD_eq_getElem?_getD, List.getElem?_eq_getElem this]
    exact ⟨rfl, List.getElem_mem this⟩
  refine ⟨hg (fun r hr => ?_) rfl, ?_⟩
  · obtain ⟨h1, h2⟩ := hcol r hr
    rcases hX r hr _ h2 with h | h
    · left; rw [h1, h]
    · right; rw [h1, h]
  · have hb : determineType (X.map fun r => r.getD j 0) = .bool := by
      rw [determineType_bool]
      intro u hu
      obtain ⟨r, hr, rfl⟩ := List.mem_map.mp hu
      exact hX r hr _ (hcol r hr).2
    obtain ⟨-, -, -, hm, -⟩ := mkActionSet_spec hA
    obtain ⟨p, -, hp⟩ := mapM_ok_mem hm he
    obtain ⟨_, _, _, _, hp⟩ := mkColumn_spec hp
    have := (mkElem_spec hp).2.2.1
    rw [hvt, hb] at this
    cases hi : e.grid.isInt with
    | false => rfl
    | true => exact absurd (this.mp hi) (by simp)

theorem binary_within (hA : mkActionSet X names y [] dflt st = .ok A) (hX : ∀ r ∈ X, ZeroOne r) (hx : ZeroOne x) :
    WithinGrids A x := by
  intro j e xj he hxj
  obtain ⟨hg, hi⟩ := binary_elems hA hX e (List.mem_of_getElem? he)
  rw [FitsGrid, hi, hg]
  refine ⟨by simp, ?_⟩
  have h8 : (1 : K) / 10 ^ 8 < 1 := by rw [div_lt_one (by positivity)]; norm_num
  rcases hx xj (List.mem_of_getElem? hxj) with rfl | rfl
  · refine ⟨?_, ⟨0, by simp, le_refl _⟩, ⟨0, by simp, le_refl _⟩⟩
    intro v hv hne
    have : v = 1 := by simpa [hne] using hv
    rw [this]; simpa using h8
  · refine ⟨?_, ⟨1, by simp, le_refl _⟩, ⟨1, by simp, le_refl _⟩⟩
    intro v hv hne
    have : v = 0 := by simpa [hne] using hv
    rw [this]; simpa using h8

/-- **C88**, data of zeros and ones: a new builder accepts a point of zeros and ones exactly if, unless the cost type
is `max`, changing some feature to its other value moves the score towards the desired outcome. -/
theorem C88_binary (hso : SetOrderOk ext) (hlog : LogIncreasing ext)
    (hA : mkActionSet X names y [] dflt st = .ok A) (hX : ∀ r ∈ X, ZeroOne r) (hb : mkBuilder be ct A w t = .ok b)
    (hk : PositiveDensity ext) (he : Estimable ext A w) (hw : ∀ c ∈ w, c = 0 ∨ 1 / 10 ^ 8 < |c|) (hx : ZeroOne x)
    (hxl : x.length = names.length) :
    (b.setX ext x).2 = .ok () ↔ ct = .max ∨ ∃ (j : ℕ) (c xj : K), w[j]? = some c ∧ x[j]? = some xj ∧
      0 < (A.yDesired : K) * (c * (1 - 2 * xj)) := by
  rw [C88_fresh hso hlog hA hb hk hw (binary_within hA hX hx)]
  simp only [hxl, he, true_and]
  apply or_congr_right
  obtain ⟨-, -, -, -, -, hAn, hAl, -⟩ := C17_construction hA
  constructor
  · rintro ⟨j, e, c, xj, v, he, hc, hxj, hv, hpos⟩
    refine ⟨j, c, xj, hc, hxj, ?_⟩
    rw [(binary_elems hA hX e (List.mem_of_getElem? he)).1] at hv
    rcases hx xj (List.mem_of_getElem? hxj) with rfl | rfl <;> simp only [List.mem_cons, List.not_mem_nil, or_false] at hv
    · rcases hv with rfl | rfl
      · simp at hpos
      · simpa using hpos
    · rcases hv with rfl | rfl
      · have h2 : (1 : K) - 2 * 1 = 0 - 1 := by ring
        rw [h2]; exact hpos
      · simp at hpos
  · rintro ⟨j, c, xj, hc, hxj, hpos⟩
    obtain ⟨e, he⟩ : ∃ e, A.elems[j]? = some e :=
      ⟨_, List.getElem?_eq_getElem (by rw [hAl, ← hxl]; exact (List.getElem?_eq_some_iff.mp hxj).1)⟩
    have hg := (binary_elems hA hX e (List.mem_of_getElem? he)).1
    refine ⟨j, e, c, xj, 1 - xj, he, hc, hxj, ?_, ?_⟩
    · rw [hg]
      rcases hx xj (List.mem_of_getElem? hxj) with rfl | rfl <;> simp
    · have h2 : (1 : K) - xj - xj = 1 - 2 * xj := by ring
      rw [h2]; exact hpos

/-- **C89**, data of zeros and ones.  A rejected person is told that there is recourse exactly if
`y * t + sum of max 0 (y * w_j)` is not negative: the condition does not depend on the person. -/
theorem C89_binary (hso : SetOrderOk ext) (hlog : LogIncreasing ext) (ho : o.Exact)
    (hA : mkActionSet X names y [] dflt st = .ok A) (hX : ∀ r ∈ X, ZeroOne r) (hb : mkBuilder be ct A w t = .ok b)
    (hk : PositiveDensity ext) (hx : ZeroOne x) (hden : Denied b x)
    (hs : b.setX ext x = (b1, .ok ())) (ha : b1.Refitted o b2) (hf : b2.fit o = .ok (b3, i)) :
    i.feasible = true ↔ 0 ≤ (A.yDesired : K) * t + (w.map fun c => max 0 ((A.yDesired : K) * c)).sum := by
  rw [C89_ends hso hlog ho hA hb hk (binary_within hA hX hx) hden hs ha hf]
  obtain ⟨-, -, -, hwl, -⟩ := fresh_elem hA hb
  obtain ⟨-, -, -, -, -, -, hAl, -⟩ := C17_construction hA
  have hg := binary_elems hA hX
  have key : ∀ (es : List (Elem K)) (w : List K), es.length = w.length → (∀ e ∈ es, e.grid.vals = [0, 1]) →
      (A.yDesired : K) * dot w (List.zipWith (fun e c => if 0 < (A.yDesired : K) * c then e.grid.vals.getLastD 0
        else e.grid.vals.headD 0) es w) = (w.map fun c => max 0 ((A.yDesired : K) * c)).sum := by
    intro es
    induction es with
    | nil => intro w hl _; cases w with
      | nil => simp [dot]
      | cons => simp at hl
    | cons e es ih =>
      intro w hl he
      cases w with
      | nil => simp at hl
      | cons c w =>
        have := ih w (by simpa using hl) fun e h => he e (List.mem_cons_of_mem _ h)
        rw [List.zipWith_cons_cons, List.map_cons, List.sum_cons, ← this, he e (List.mem_cons_self ..)]
        unfold dot
        rw [List.zipWith_cons_cons, List.sum_cons, mul_add]
        congr 1
        split
        · rename_i h; rw [max_eq_right h.le]; simp
        · rename_i h; rw [max_eq_left (not_lt.mp h)]; simp
  unfold bestPoint
  rw [mul_add, key A.elems w (by rw [hAl, hwl]) (fun e he => (hg e he).1), add_comm]

/-! ## Audits -/

/-- A builder exists for every new set and every classifier of the right length. -/
theorem mkBuilder_total {A : ActionSet K} (h : w.length = A.names.length) : ∃ b, mkBuilder be ct A w t = .ok b := by
  unfold mkBuilder
  rw [decide_eq_true h.symm, show pyAssert true = .ok () from rfl, ok_bind]
  by_cases hk : A.alignmentKnown = true
  · rw [if_pos hk]; exact ⟨_, rfl⟩
  · rw [if_neg hk]
    unfold ActionSet.setAlignment
    rw [decide_eq_true h, show pyAssert true = .ok () from rfl, ok_bind]
    exact ⟨_, rfl⟩

theorem setAlignment_known {A' : ActionSet K} (h : A.setAlignment w = .ok A') : A'.alignmentKnown = true := by
  obtain ⟨-, rfl⟩ := setAlignment_ok h
  unfold ActionSet.alignmentKnown
  rw [List.all_eq_true]
  intro e he
  obtain ⟨j, hj⟩ := List.mem_iff_getElem?.mp he
  obtain ⟨e0, f, -, -, rfl⟩ := List.getElem?_zipWith_eq_some.mp hj
  rfl

/-- The auditor of a set that is not aligned holds the builder for that set. -/
theorem mkAuditor_builder {ad : Auditor K} (hal : A.alignmentKnown = false) (h : mkAuditor be A w t = .ok ad) :
    mkBuilder be .max A w t = .ok ad.builder ∧ ad.coefs = w ∧ ad.intercept = t := by
  unfold mkAuditor at h
  obtain ⟨A', hA', h⟩ := bind_ok_iff.mp h
  obtain ⟨b, hb, h⟩ := bind_ok_iff.mp h
  cases h
  refine ⟨?_, rfl, rfl⟩
  obtain ⟨hw, hAe⟩ := setAlignment_ok hA'
  unfold mkBuilder at hb ⊢
  rw [if_neg (by rw [hal]; simp), hA', ok_bind]
  rw [if_pos (setAlignment_known hA'), ok_bind] at hb
  rw [hAe] at hb ⊢
  exact hb

/-- **C89**, audits of new sets.  An audit of people within the grids, of whom at least one is rejected, over a new
set and any classifier whose coefficients are 0 or above numpy's tolerance, succeeds, and says the same of all
rejected people: that there is recourse if the most favourable point is approved, else that there is none.
(Desired outcome 1; exact solver.) -/
theorem C89_audit {ι : Type} {P : List (ι × List K)} {ad : Auditor K} (hso : SetOrderOk ext)
    (hlog : LogIncreasing ext) (ho : o.Exact)
    (hA : mkActionSet X names 1 custom dflt st = .ok A) (had : mkAuditor be A w t = .ok ad)
    (hk : PositiveDensity ext) (he : Estimable ext A w) (hw : ∀ c ∈ w, c = 0 ∨ 1 / 10 ^ 8 < |c|)
    (hP : ∀ p ∈ P, WithinGrids A p.2 ∧ p.2.length = names.length)
    (hsome : ∃ p ∈ P, dot w p.2 + t < 0) :
    ∃ ad' T, ad.audit ext o P 1 = (ad', .ok T) ∧ T.length = P.length ∧
      ∀ (k : ℕ) (l : ι) (x : List K), P[k]? = some (l, x) → ∃ row, T[k]? = some (l, row) ∧
        row.feasible = if 0 ≤ dot w x + t then none else some (decide (0 ≤ dot w (bestPoint A w) + t)) := by
  have hal : A.alignmentKnown = false := (C17_construction hA).2.2.2.2.2.2.2.2.2.1
  obtain ⟨hb, hcf, hint⟩ := mkAuditor_builder hal had
  have hr : ad.Reachable ext := .mk (.mk hA) had
  have hwl : w.length = names.length := (fresh_elem hA hb).2.2.2.1
  have hyd : A.yDesired = 1 := by rw [(mkActionSet_spec hA).2.2.2.2.2.2.2]; rfl
  have hout : ∀ x : List K, HasOutcome 1 ad.coefs ad.intercept x ↔ 0 ≤ dot w x + t := by
    intro x; unfold HasOutcome; rw [if_pos (by norm_num), hcf, hint]
  obtain ⟨ad', T, hT⟩ := C46_succeeds_partial (o := o) (y := 1) (X := P) hr (by
      intro p hp; rw [(hP p hp).2, hcf, hwl]) (Or.inl rfl) (by
      obtain ⟨p, hp, hd⟩ := hsome
      exact ⟨p, hp, by rw [hout]; exact not_le.mpr hd⟩) (by
      intro p hp _
      exact (C88_fresh hso hlog hA hb hk hw (hP p hp).1).mpr ⟨(hP p hp).2, he, Or.inl rfl⟩)
  have hlab := (C44_rows hr hT).1
  have hlen : T.length = P.length := by
    have := congrArg List.length hlab
    simpa using this
  refine ⟨ad', T, hT, hlen, ?_⟩
  intro k l x hx
  have hkT : k < T.length := by rw [hlen]; exact (List.getElem?_eq_some_iff.mp hx).1
  obtain ⟨l', row, hrow⟩ : ∃ l' row, T[k]? = some (l', row) := ⟨_, _, List.getElem?_eq_getElem hkT⟩
  have hl : l' = l := by
    have := congrArg (fun L => L[k]?) hlab
    simp only [List.getElem?_map, hrow, hx, Option.map_some] at this
    exact Option.some.inj this
  subst hl
  refine ⟨row, hrow, ?_⟩
  obtain ⟨h1, h2⟩ := audit_entry hr hT hx hrow
  by_cases h : 0 ≤ dot w x + t
  · rw [if_pos h, h1 ((hout x).mpr h)]
  · rw [if_neg h]
    obtain ⟨n, b1, b', i, e1, e2, rfl⟩ := h2 (fun h' => h ((hout x).mp h'))
    obtain ⟨-, hbc, hbi, -⟩ := mkBuilder_parts hb
    have hby : ad.builder.aset.yDesired = 1 := by rw [(fresh_elem hA hb).2.2.1, hyd]
    have hden : Denied ad.builder x := by
      unfold Denied; rw [hby, hbc, hbi]; push_cast; rw [one_mul]; exact not_le.mp h
    have := C89_ends hso hlog (ho.at n) hA hb hk (hP _ (List.mem_of_getElem? hx)).1 hden e1 .refl e2
    rw [hyd, Int.cast_one, one_mul] at this
    show some i.feasible = _
    rw [Option.some.injEq, Bool.eq_iff_iff, this, decide_eq_true_eq]

end

/-! ## Non-vacuity -/

theorem exExt_increasing : LogIncreasing exExt :=
  ⟨by simp [exExt], fun r s _ h => by simpa [exExt] using h⟩

theorem exExt_density : PositiveDensity exExt := by
  intro vals pdf h v
  cases h
  norm_num

/-- An audit of three people: one approved, two rejected with recourse. -/
example : ∃ (A : ActionSet ℚ) (ad : Auditor ℚ), mkActionSet [[0, 1], [1, 0]] ["a", "b"] 1 [] defaultBounds
      (.str "relative") = .ok A ∧ mkAuditor .pymip A [1, 1] (-2) = .ok ad ∧
    ∀ o : Oracle ℚ, o.Exact → ∃ ad' T, ad.audit exExt o [("x", [0, 0]), ("y", [1, 1]), ("z", [1, 0])] 1 = (ad', .ok T) ∧
      ∃ r1 r2 r3, T[0]? = some ("x", r1) ∧ T[1]? = some ("y", r2) ∧ T[2]? = some ("z", r3) ∧
        r1.feasible = some true ∧ r2.feasible = none ∧ r3.feasible = some true := by
  have hX : ∀ r ∈ [[0, 1], [1, (0 : ℚ)]], ZeroOne r := by intro r hr; fin_cases hr <;> simp [ZeroOne]
  obtain ⟨A, hA⟩ : ∃ A, mkActionSet [[0, 1], [1, (0 : ℚ)]] ["a", "b"] 1 [] defaultBounds (.str "relative") = .ok A :=
    C17_succeeds.mpr ⟨by decide, by decide, by decide, by decide, by decide, by decide, fun j hj => Or.inl (by
      match j, hj with
      | 0, _ => decide +kernel
      | 1, _ => decide +kernel)⟩
  have hn := (C17_construction hA).2.2.2.2.2.1
  obtain ⟨ad, had⟩ : ∃ ad, mkAuditor .pymip A [1, 1] (-2) = .ok ad := by
    unfold mkAuditor ActionSet.setAlignment
    rw [hn, show pyAssert (decide ([1, (1 : ℚ)].length = ["a", "b"].length)) = .ok () from rfl, ok_bind, ok_bind]
    obtain ⟨b, hb⟩ := mkBuilder_total (be := .pymip) (ct := .max) (t := (-2 : ℚ)) (w := [1, 1])
      (A := { A with elems := List.zipWith Elem.setFlip A.elems ([1, (1 : ℚ)].map fun c =>
        if 0 < A.yDesired then sgn c else -(sgn c)) }) (by
        show _ = A.names.length
        rw [hn]; rfl)
    rw [hn] at hb
    rw [hb]; exact ⟨_, rfl⟩
  refine ⟨A, ad, hA, had, ?_⟩
  intro o ho
  have hw : ∀ x : List ℚ, ZeroOne x → WithinGrids A x := fun x hx => binary_within hA hX hx
  have hg := binary_elems hA hX
  have hbest : bestPoint A [1, 1] = [1, 1] := by
    have hy : A.yDesired = 1 := by rw [(mkActionSet_spec hA).2.2.2.2.2.2.2]; rfl
    have hl := (C17_construction hA).2.2.2.2.2.2.1
    unfold bestPoint
    rw [hy]
    obtain ⟨e, f, hE⟩ := List.length_eq_two.mp (hl.trans (by rfl))
    rw [hE] at hg ⊢
    have h1 := (hg e (by simp)).1
    have h2 := (hg f (by simp)).1
    simp [h1, h2]
  obtain ⟨ad', T, h1, -, h3⟩ := C89_audit (P := [("x", [0, 0]), ("y", [1, 1]), ("z", [1, (0 : ℚ)])]) exExt_order
    exExt_increasing ho hA had exExt_density (fun _ _ _ _ _ _ => ⟨_, rfl⟩) (by
      intro c hc; fin_cases hc <;> norm_num) (by
      intro p hp
      fin_cases hp <;> exact ⟨hw _ (by simp [ZeroOne]), rfl⟩) ⟨("x", [0, 0]), by simp, by norm_num [dot]⟩
  obtain ⟨r1, a1, b1⟩ := h3 0 "x" [0, 0] rfl
  obtain ⟨r2, a2, b2⟩ := h3 1 "y" [1, 1] rfl
  obtain ⟨r3, a3, b3⟩ := h3 2 "z" [1, 0] rfl
  refine ⟨ad', T, h1, r1, r2, r3, a1, a2, a3, ?_, ?_, ?_⟩
  · rw [b1, hbest]; norm_num [dot]
  · rw [b2]; norm_num [dot]
  · rw [b3, hbest]; norm_num [dot]

end Recourse
