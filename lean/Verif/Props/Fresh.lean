import Verif.Props.Accept
import Verif.Props.Sets
import Verif.Props.Percent

/-!
# C17, C88: when construction succeeds; which points a new builder accepts
-/

set_option linter.unusedSectionVars false

namespace Recourse

variable {K : Type} [Field K] [LinearOrder K] [IsStrictOrderedRing K] [FloorRing K]

theorem checkRep_intro {e : Elem K} (ha : e.Attrs) (hg : e.grid.vals.Pairwise (· < ·)) : e.checkRep = true := by
  unfold Elem.checkRep
  rw [Bool.and_eq_true, Bool.and_eq_true]
  refine ⟨⟨decide_eq_true ha.bounds, decide_eq_true ?_⟩, decide_eq_true ?_⟩
  · exact hg.imp fun h => ne_of_lt h
  · exact hg.imp fun h => le_of_lt h

/-- The constructor of a feature succeeds once its arguments are parsed and the grid exists. -/
theorem mkElem_total {name : String} {values : List K} {bounds : PyVal K} {vt : Option VType}
    {act : Bool} {st : PyVal K} {sd : K} {ss : PyVal K} {b : Bound K} {st' : StepType} {s : K} {g : Grid K}
    (h1 : name ≠ "") (h2 : values ≠ []) (h3 : parseBounds (npSort values) bounds = .ok b)
    (h4 : parseStepType st = .ok st') (h5 : parseStepSize st' ss = .ok s)
    (h6 : mkGrid (vt.getD (determineType (npSort values))) b.lb b.ub st' s = .ok g) :
    ∃ e, mkElem name values bounds vt act st sd ss = .ok e := by
  have ha : Elem.Attrs (⟨name, npSort values, vt.getD (determineType (npSort values)), act, b, st', s,
      sgn sd, none, g, none, []⟩ : Elem K) := ⟨parseBounds_le h3, parseStepSize_pos h5⟩
  have hg := mkGrid_eq (g := g) ha h6
  have hs : g.vals.Pairwise (· < ·) := (hg.1.gridOk hg.2.mp).sorted
  unfold mkElem
  rw [show pyAssert (decide (1 ≤ name.length)) = .ok () from by
    rw [decide_eq_true]; · rfl
    · rw [Nat.one_le_iff_ne_zero]; intro h; exact h1 (String.length_eq_zero_iff.mp h)]
  rw [ok_bind]
  dsimp only
  rw [show pyAssert (decide (1 ≤ (npSort values).length)) = .ok () from by
    rw [decide_eq_true]; · rfl
    · unfold npSort; rw [List.length_insertionSort, Nat.one_le_iff_ne_zero]
      intro h; exact h2 (List.length_eq_zero_iff.mp h)]
  rw [ok_bind, h3, ok_bind, h4, ok_bind, h5, ok_bind, h6, ok_bind]
  rw [show pyAssert _ = .ok () from by rw [checkRep_intro ha hs]; rfl]
  exact ⟨_, rfl⟩

theorem npSort_idem (l : List K) : npSort (npSort l) = npSort l :=
  (npSort_sorted l).insertionSort_eq

theorem npPercentile_sorted (l : List K) (q : K) : npPercentile (npSort l) q = npPercentile l q := by
  unfold npPercentile; rw [npSort_idem]

theorem determineType_sorted (l : List K) : determineType (npSort l) = determineType l := by
  have hpm : ∀ p : K → Bool, (npSort l).all p = l.all p := by
    intro p
    rw [Bool.eq_iff_iff, List.all_eq_true, List.all_eq_true]
    exact ⟨fun hh x hx => hh x (mem_npSort.mpr hx), fun hh x hx => hh x (mem_npSort.mp hx)⟩
  unfold determineType; rw [hpm, hpm]

/-- If percentiles of two different ranks are equal, they are one of the data. -/
theorem interpPos_flat {l : List K} {p q : K} (h0 : 0 ≤ p) (hpq : p < q) (hq : q ≤ (l.length : K) - 1)
    (h : interpPos (npSort l) p = interpPos (npSort l) q) : interpPos (npSort l) p ∈ l := by
  have hq0 : 0 ≤ q := h0.trans hpq.le
  have hfp : 0 ≤ ⌊p⌋ := Int.floor_nonneg.mpr h0
  have hfq : 0 ≤ ⌊q⌋ := Int.floor_nonneg.mpr hq0
  have hf : ⌊p⌋ ≤ ⌊q⌋ := Int.floor_le_floor hpq.le
  obtain ⟨i, hi⟩ : ∃ i : ℕ, ⌊p⌋ = i := ⟨_, (Int.toNat_of_nonneg hfp).symm⟩
  obtain ⟨j, hj⟩ : ∃ j : ℕ, ⌊q⌋ = j := ⟨_, (Int.toNat_of_nonneg hfq).symm⟩
  have hpi : (i : K) ≤ p := by have := Int.floor_le p; rw [hi] at this; exact_mod_cast this
  have hpi' : p < (i : K) + 1 := by have := Int.lt_floor_add_one p; rw [hi] at this; exact_mod_cast this
  have hqj : (j : K) ≤ q := by have := Int.floor_le q; rw [hj] at this; exact_mod_cast this
  have hij : i ≤ j := by omega
  have hjn : j < l.length := by
    have h1 : (j : K) ≤ (l.length : K) - 1 := hqj.trans hq
    have h2 : ((j + 1 : ℕ) : K) ≤ (l.length : K) := by push_cast; linarith
    exact_mod_cast h2
  have e1 : (⌊p⌋).toNat = i := by omega
  have e2 : (⌊q⌋).toNat = j := by omega
  have hmem : ∀ k, k < l.length → (npSort l).getD k 0 ∈ l := by
    intro k hk
    have hk' : k < (npSort l).length := by rw [length_npSort]; exact hk
    rw [List.getD_eq_getElem _ _ hk']
    exact mem_npSort.mp (List.getElem_mem hk')
  unfold interpPos at h ⊢
  rw [e1, length_npSort] at h ⊢
  rw [e2] at h
  have hup : ∀ k, k < l.length → (npSort l).getD k 0 ≤ (npSort l).getD (min (k + 1) (l.length - 1)) 0 := by
    intro k hk; exact npSort_mono (by omega) (by omega)
  rcases hij.lt_or_eq with hlt | rfl
  · have hd := hup i (by omega)
    have h1 : (npSort l).getD i 0 + (p - i) * ((npSort l).getD (min (i + 1) (l.length - 1)) 0 - (npSort l).getD i 0)
        ≤ (npSort l).getD (min (i + 1) (l.length - 1)) 0 := by nlinarith
    have h2 : (npSort l).getD (min (i + 1) (l.length - 1)) 0 ≤ (npSort l).getD j 0 := npSort_mono (by omega) hjn
    have h3 : 0 ≤ (q - j) * ((npSort l).getD (min (j + 1) (l.length - 1)) 0 - (npSort l).getD j 0) :=
      mul_nonneg (by linarith) (sub_nonneg.mpr (hup j hjn))
    have h4 : (npSort l).getD i 0 + (p - i) * ((npSort l).getD (min (i + 1) (l.length - 1)) 0 - (npSort l).getD i 0)
        = (npSort l).getD (min (i + 1) (l.length - 1)) 0 := le_antisymm h1 (by linarith)
    rw [h4]
    exact hmem _ (by omega)
  · have h5 : (q - p) * ((npSort l).getD (min (i + 1) (l.length - 1)) 0 - (npSort l).getD i 0) = 0 := by linarith
    rcases mul_eq_zero.mp h5 with h5 | h5
    · exact absurd h5 (ne_of_gt (sub_pos.mpr hpq))
    · rw [h5, mul_zero, add_zero]; exact hmem _ hjn

theorem npPercentile_flat {l : List K} (hl : l ≠ []) {p q : K} (h0 : 0 ≤ p) (hpq : p < q) (hq : q ≤ 100)
    (h : npPercentile l p = npPercentile l q) : npPercentile l p ∈ l := by
  have hn : 1 ≤ l.length := List.length_pos_iff.mpr hl
  rcases Nat.lt_or_ge 1 l.length with h2 | h2
  · have h2' : (0 : K) < (l.length : K) - 1 := by
      have : (1 : K) < (l.length : K) := by exact_mod_cast h2
      linarith
    rw [npPercentile_eq] at h ⊢
    rw [npPercentile_eq] at h
    refine interpPos_flat (mul_nonneg (div_nonneg h0 (by norm_num)) h2'.le) ?_ ?_ h
    · exact mul_lt_mul_of_pos_right (div_lt_div_of_pos_right hpq (by norm_num)) h2'
    · have : q / 100 ≤ 1 := by rw [div_le_one (by norm_num)]; exact hq
      nlinarith
  · match l, hn, h2 with
    | [c], _, _ =>
      rw [npPercentile_const (c := c) (by simp) (by simp) h0 (hpq.le.trans hq)]; simp

/-! ## C17: when construction succeeds -/

/-- The column `v` can be used with the default bounds: it has only zeros and ones, or its first percentile is
below its 99th (numpy's percentiles). -/
def GoodColumn (v : List K) : Prop := (∀ u ∈ v, u = 0 ∨ u = 1) ∨ npPercentile v 1 < npPercentile v 99

theorem determineType_bool {v : List K} : determineType v = .bool ↔ ∀ u ∈ v, u = 0 ∨ u = 1 := by
  unfold determineType
  constructor
  · intro h
    split_ifs at h with h1 h2
    rw [List.all_eq_true] at h2
    exact fun u hu => of_decide_eq_true (h2 u hu)
  · intro h
    rw [if_pos, if_pos]
    · rw [List.all_eq_true]; exact fun u hu => decide_eq_true (h u hu)
    · rw [List.all_eq_true]; intro u hu
      rw [isIntegral_iff]
      rcases h u hu with rfl | rfl
      · exact ⟨0, by simp⟩
      · exact ⟨1, by simp⟩

theorem determineType_int {v : List K} (h : determineType v = .int) : ∀ u ∈ v, ∃ z : ℤ, (z : K) = u := by
  unfold determineType at h
  split_ifs at h with h1 h2
  rw [List.all_eq_true] at h1
  exact fun u hu => isIntegral_iff.mp (h1 u hu)

theorem binary_total {n : String} {v : List K} (hn : n ≠ "") (hv : v ≠ []) :
    ∃ e, mkElem n v (.tuple [.int 0, .int 1, .str "absolute"]) (some .bool) true (.str "absolute") 0 (.int 1)
      = .ok e := by
  have hb : ∃ b : Bound K, parseBounds (npSort v) (.tuple [.int 0, .int 1, .str "absolute"]) = .ok b ∧ True := by
    simp only [parseBounds, mkBound, boundVType, parseBType, boundPair, absNum, boundNum, ok_bind]
    rw [show pyAssert (decide (((0 : ℤ) : K) ≤ ((1 : ℤ) : K))) = .ok () from by rw [decide_eq_true (by norm_num)]; rfl]
    rw [ok_bind]
    split_ifs <;> exact ⟨_, rfl, trivial⟩
  obtain ⟨b, hb, -⟩ := hb
  have hs : parseStepSize (K := K) .absolute (.int 1) = .ok 1 := by
    simp only [parseStepSize, stepNum, scalarNum, ok_bind]
    rw [show pyAssert (decide ((0 : K) < ((1 : ℤ) : K))) = .ok () from by rw [decide_eq_true (by norm_num)]; rfl]
    simp [pyAssert, ok_bind]
  refine mkElem_total hn hv hb rfl hs (g := ?g) ?_
  case g => exact ⟨(List.range (⌈(b.ub + 1 - b.lb) / 1⌉).toNat).map fun (i : ℕ) => b.lb + (i : K) * 1, false⟩
  simp only [mkGrid, gridParams, arange, reduceCtorEq, if_false, one_ne_zero, ok_bind, Option.getD_some]

theorem default_total {n : String} {v : List K} {vt : VType} (hn : n ≠ "") (hv : v ≠ []) (hvt : determineType v = vt)
    (hb : vt ≠ .bool) :
    (∃ e, mkElem n v defaultBounds (some vt) true (.str "relative") 0 (.flt (1 / 100)) = .ok e)
      ↔ npPercentile v 1 < npPercentile v 99 := by
  have hmono : npPercentile v 1 ≤ npPercentile v 99 := npPercentile_mono hv (by norm_num) (by norm_num) (by norm_num)
  have hbd : ∃ b : Bound K, parseBounds (npSort v) defaultBounds = .ok b ∧
      b.lb = (if vt = .int then (⌊npPercentile v 1⌋ : K) else npPercentile v 1) ∧
      b.ub = (if vt = .int then (⌈npPercentile v 99⌉ : K) else npPercentile v 99) := by
    simp only [defaultBounds, parseBounds, mkBound, boundVType, parseBType, boundPair, boundNum, ok_bind,
      determineType_sorted, hvt]
    rw [show pyAssert (decide ((0 : K) ≤ ((1 : ℤ) : K) ∧ ((1 : ℤ) : K) ≤ 100)) = .ok () from by
      rw [decide_eq_true (by norm_num)]; rfl]
    rw [show pyAssert (decide ((0 : K) ≤ ((99 : ℤ) : K) ∧ ((99 : ℤ) : K) ≤ 100)) = .ok () from by
      rw [decide_eq_true (by norm_num)]; rfl]
    simp only [ok_bind, npPercentile_sorted, Int.cast_one, Int.cast_ofNat]
    rw [decide_eq_true hmono, show pyAssert true = .ok () from rfl, ok_bind]
    split_ifs with h
    · exact ⟨_, rfl, rfl, rfl⟩
    · exact ⟨_, rfl, rfl, rfl⟩
  obtain ⟨b, hb1, hlb, hub⟩ := hbd
  have hs : parseStepSize (K := K) .relative (.flt (1 / 100)) = .ok (1 / 100) := by
    simp only [parseStepSize, stepNum, scalarNum, ok_bind]
    rw [show pyAssert (decide ((0 : K) < 1 / 100)) = .ok () from by rw [decide_eq_true (by norm_num)]; rfl]
    rw [ok_bind]
    rw [show pyAssert (decide (True → (1 : K) / 100 ≤ 1)) = .ok () from by
      rw [decide_eq_true (fun _ => by norm_num)]; rfl]
    rfl
  have hgrid : (∃ g, mkGrid vt b.lb b.ub .relative (1 / 100 : K) = .ok g) ↔ npPercentile v 1 < npPercentile v 99 := by
    constructor
    · rintro ⟨g, hg⟩
      by_contra hlt
      have heq : npPercentile v 1 = npPercentile v 99 := le_antisymm hmono (not_lt.mp hlt)
      have hm := npPercentile_flat hv (by norm_num : (0 : K) ≤ 1) (by norm_num : (1 : K) < 99) (by norm_num) heq
      have hbb : b.lb = b.ub ∧ (vt = .int → ∃ z : ℤ, (z : K) = b.lb) := by
        rw [hlb, hub, ← heq]
        by_cases hi : vt = .int
        · rw [if_pos hi, if_pos hi]
          obtain ⟨z, hz⟩ := determineType_int (hvt.trans hi) _ hm
          rw [← hz]
          simp only [Int.floor_intCast, Int.ceil_intCast]
          exact ⟨trivial, fun _ => ⟨z, rfl⟩⟩
        · rw [if_neg hi, if_neg hi]
          exact ⟨rfl, fun h => absurd h hi⟩
      rw [mkGrid_degenerate hbb.1 hbb.2] at hg
      cases hg
    · intro hlt
      unfold mkGrid gridParams
      dsimp only
      have hstep : (if vt = .int then ((⌈(1 / 100 : K) * ((if vt = .int then (⌈b.ub⌉ : K) else b.ub)
          - (if vt = .int then (⌊b.lb⌋ : K) else b.lb))⌉ : ℤ) : K)
          else (1 / 100 : K) * ((if vt = .int then (⌈b.ub⌉ : K) else b.ub)
          - (if vt = .int then (⌊b.lb⌋ : K) else b.lb))) ≠ 0 := by
        by_cases hi : vt = .int
        · simp only [if_pos hi] at hlb hub ⊢
          rw [hlb, hub]
          simp only [Int.floor_intCast, Int.ceil_intCast]
          have h1 := Int.floor_le (npPercentile v 1)
          have h2 := Int.le_ceil (npPercentile v 99)
          have : (0 : K) < 1 / 100 * ((⌈npPercentile v 99⌉ : K) - (⌊npPercentile v 1⌋ : K)) := by
            apply mul_pos (by norm_num); linarith
          exact_mod_cast (Int.ceil_pos.mpr this).ne'
        · simp only [if_neg hi] at hlb hub ⊢
          rw [hlb, hub]
          exact (mul_pos (by norm_num) (sub_pos.mpr hlt)).ne'
      rw [if_pos rfl]
      unfold arange
      rw [if_neg hstep, ok_bind]
      by_cases hi : vt = .int
      · rw [if_pos hi]; exact ⟨_, rfl⟩
      · rw [if_neg hi]; exact ⟨_, rfl⟩
  rw [← hgrid]
  constructor
  · rintro ⟨e, he⟩
    unfold mkElem at he
    simp only [bind_ok_iff] at he
    obtain ⟨_, -, _, -, b', hb', st, hst, s, hss, g, hg, _, -, -⟩ := he
    rw [hb1] at hb'; cases hb'
    cases hst
    rw [hs] at hss; cases hss
    exact ⟨g, hg⟩
  · rintro ⟨g, hg⟩
    exact mkElem_total hn hv hb1 rfl hs hg

theorem mkColumn_default {X : List (List K)} {custom : List (String × PyVal K)} {j : ℕ} {n : String}
    (hX : X ≠ []) (hn : n ≠ "") (hc : custom.lookup n = none) :
    (∃ e, mkColumn X custom defaultBounds (.str "relative") j n = .ok e) ↔ GoodColumn (column X j) := by
  have hv : column X j ≠ [] := by
    unfold column; intro h0; exact hX (List.map_eq_nil_iff.mp h0)
  unfold GoodColumn
  rw [← determineType_bool]
  unfold mkColumn
  dsimp only
  rw [hc]
  cases hd : determineType (column X j) with
  | bool => simp only [Option.getD_none, true_or, iff_true]; exact binary_total hn hv
  | int =>
    simp only [Option.getD_none, reduceCtorEq, false_or]
    exact default_total hn hv hd (by simp)
  | float =>
    simp only [Option.getD_none, reduceCtorEq, false_or]
    exact default_total hn hv hd (by simp)

/-- **C17**, success: with the default arguments the construction succeeds exactly if there are rows, there are
names, the names are distinct and not empty, every row has one value per name, the desired outcome is -1, 0 or 1,
and every column has only zeros and ones or spreads between its first and its 99th percentile. -/
theorem C17_succeeds {X : List (List K)} {names : List String} {y : Int} :
    (∃ A, mkActionSet X names y [] defaultBounds (.str "relative") = .ok A) ↔
      names ≠ [] ∧ names.Nodup ∧ (∀ n ∈ names, n ≠ "") ∧ X ≠ [] ∧ (∀ r ∈ X, r.length = names.length) ∧
      (y = -1 ∨ y = 0 ∨ y = 1) ∧ ∀ j < names.length, GoodColumn (column X j) := by
  constructor
  · rintro ⟨A, hA⟩
    obtain ⟨h1, h2, h3, h4, h5, -⟩ := C17_construction hA
    obtain ⟨-, -, -, hm, hy, -⟩ := mkActionSet_spec hA
    refine ⟨h1, h2, h3, h4, h5, hy, ?_⟩
    intro j hj
    have hmem : (names[j], j) ∈ names.zipIdx := by
      rw [List.mem_zipIdx_iff_getElem?]; exact List.getElem?_eq_getElem hj
    obtain ⟨e, -, he⟩ := mapM_ok_mem' hm hmem
    exact (mkColumn_default h4 (h3 _ (List.getElem_mem hj)) rfl).mp ⟨e, he⟩
  · rintro ⟨h1, h2, h3, h4, h5, hy, hg⟩
    obtain ⟨es, hes⟩ : ∃ es, (names.zipIdx.mapM fun (p : String × ℕ) =>
        mkColumn X [] defaultBounds (.str "relative") p.2 p.1) = .ok es := by
      refine mapM_total ?_
      rintro ⟨n, j⟩ hp
      rw [List.mem_zipIdx_iff_getElem?] at hp
      obtain ⟨hj, -⟩ := List.getElem?_eq_some_iff.mp hp
      exact (mkColumn_default h4 (h3 n (List.mem_of_getElem? hp)) rfl).mpr (hg j hj)
    unfold mkActionSet
    rw [show pyAssert (checkVariableNames names) = .ok () from by
      rw [show checkVariableNames names = true from by
        simp only [checkVariableNames, Bool.and_eq_true, decide_eq_true_eq, List.all_eq_true]
        refine ⟨⟨?_, ?_⟩, h2⟩
        · exact List.length_pos_iff.mpr h1
        · intro n hn
          exact Nat.one_le_iff_ne_zero.mpr fun h => h3 n hn (String.length_eq_zero_iff.mp h)]
      rfl]
    rw [ok_bind, decide_eq_true (show 1 ≤ X.length from List.length_pos_iff.mpr h4),
      show pyAssert true = .ok () from rfl, ok_bind,
      show (X.all fun r => decide (r.length = names.length)) = true from by
        rw [List.all_eq_true]; exact fun r hr => decide_eq_true (h5 r hr),
      show pyAssert true = .ok () from rfl, ok_bind, hes, ok_bind, decide_eq_true hy,
      show pyAssert true = .ok () from rfl, ok_bind]
    exact ⟨_, rfl⟩

/-- Non-vacuity: columns of all three types. -/
example : ∃ A, mkActionSet [[0, 3, 0], [1, 5, 1/2], [0, 7, (2 : ℚ)]] ["a", "b", "c"] 1 [] defaultBounds
    (.str "relative") = .ok A := C17_succeeds.mpr (by
  unfold GoodColumn
  refine ⟨by decide, by decide, by decide, by decide, by decide, by decide, ?_⟩
  decide +kernel)

/-! ## C88: new builders -/

section
variable {ext : Ext K} {X : List (List K)} {names : List String} {y : Int} {custom : List (String × PyVal K)}
  {dflt st : PyVal K} {A : ActionSet K} {be : Backend} {ct : CostType} {w : List K} {t : K} {b : Builder K}
  {x : List K}

/-- The features of a new builder made for a new set are those of the set, aligned with the classifier. -/
theorem fresh_elem (hA : mkActionSet X names y custom dflt st = .ok A) (hb : mkBuilder be ct A w t = .ok b) :
    b.aset.names = names ∧ b.aset.cons.items = [] ∧ b.aset.yDesired = A.yDesired ∧ w.length = names.length ∧
    ∀ (j : ℕ) (e : Elem K), b.aset.elems[j]? = some e → ∃ e0 wj, A.elems[j]? = some e0 ∧ w[j]? = some wj ∧
      e = { e0 with flip := some (A.yDesired * sgn wj) } ∧ e0.cache = none ∧ e0.actionable = true ∧ e0.stepDir = 0 := by
  obtain ⟨-, -, -, -, -, hn, hlen, hcons, hy, hal, hel⟩ := C17_construction hA
  obtain ⟨h1, -⟩ := mkBuilder_parts hb
  rw [hal, if_neg (by simp)] at h1
  obtain ⟨hw, hA'⟩ := setAlignment_ok h1
  rw [hA']
  refine ⟨hn, hcons, rfl, hw.trans (by rw [hn]), ?_⟩
  intro j e he
  dsimp only at he
  obtain ⟨e0, f, he0, hf, rfl⟩ := List.getElem?_zipWith_eq_some.mp he
  rw [List.getElem?_map] at hf
  obtain ⟨wj, hwj, rfl⟩ := Option.map_eq_some_iff.mp hf
  obtain ⟨-, -, -, -, hact, hdir, -⟩ := hel j e0 he0
  refine ⟨e0, wj, he0, hwj, ?_, ?_, hact, hdir⟩
  · unfold Elem.setFlip
    congr 2
    rcases hy with hy | hy <;> rw [hy]
    · rw [if_pos (by norm_num), one_mul]; unfold sgn; split_ifs <;> rfl
    · rw [if_neg (by norm_num)]; unfold sgn; split_ifs <;> rfl
  · obtain ⟨-, -, -, hm, -⟩ := mkActionSet_spec hA
    obtain ⟨p, -, hp⟩ := mapM_ok_mem hm (List.mem_of_getElem? he0)
    obtain ⟨_, _, _, _, hp⟩ := mkColumn_spec hp
    exact (mkElem_spec hp).2.2.2.2.2.2.2.2.2

/-- There is a useful change: some feature has a grid value that moves the score towards the desired outcome. -/
def UsefulMove (A : ActionSet K) (w x : List K) : Prop :=
  ∃ (j : ℕ) (e : Elem K) (wj xj v : K), A.elems[j]? = some e ∧ w[j]? = some wj ∧ x[j]? = some xj ∧
    v ∈ e.grid.vals ∧ 0 < (A.yDesired : K) * (wj * (v - xj))

/-- The point lies within the range of the grid of every feature, fits its type, and is not within `1e-8` of a
grid value it is not equal to. -/
def WithinGrids (A : ActionSet K) (x : List K) : Prop :=
  ∀ (j : ℕ) (e : Elem K) (xj : K), A.elems[j]? = some e → x[j]? = some xj →
    FitsGrid e xj ∧ (∀ v ∈ e.grid.vals, v ≠ xj → 1 / 10 ^ 8 < |v - xj|) ∧
      (∃ u ∈ e.grid.vals, u ≤ xj) ∧ ∃ u ∈ e.grid.vals, xj ≤ u

/-- Density estimates are positive. -/
def PositiveDensity (ext : Ext K) : Prop := ∀ vals pdf, ext.kde vals = .ok pdf → ∀ v, 0 < pdf v

/-- Density estimates exist for the data of the features that the classifier uses. -/
def Estimable (ext : Ext K) (A : ActionSet K) (w : List K) : Prop :=
  ∀ (j : ℕ) (e : Elem K) (c : K), A.elems[j]? = some e → w[j]? = some c → c ≠ 0 → ∃ pdf, ext.kde e.values = .ok pdf

/-- A new builder for a new set is regular at the points within the grids. -/
theorem fresh_regular (hA : mkActionSet X names y custom dflt st = .ok A) (hb : mkBuilder be ct A w t = .ok b)
    (hk : PositiveDensity ext) (hx : WithinGrids A x) : Regular ext b x := by
  obtain ⟨hn, hcons, hy, hw, hel⟩ := fresh_elem hA hb
  obtain ⟨-, hcf, -, -, -, hmin, -⟩ := mkBuilder_parts hb
  have hr : b.Reachable ext := .mk (.mk hA) hb
  refine regular_of_range hr.ok hk ?_ ?_ ?_ ?_
  · rintro l n - ⟨k, hk, -⟩
    rw [hcons] at hk; cases hk
  · intro j e wj he hwj
    obtain ⟨e0, wj', -, hwj', rfl, -⟩ := hel j e he
    rw [hcf, hwj'] at hwj; cases hwj
    rw [hy]
  · rw [hmin]; omega
  · intro j e xj he hxj ha
    obtain ⟨e0, wj', he0, hwj', rfl, hc, -, -⟩ := hel j e he
    refine ⟨?_, hx j e0 xj he0 hxj⟩
    unfold Elem.table
    dsimp only
    rw [hc]

/-- **C88**, new sets.  A new builder for a new set and a classifier whose coefficients are 0 or above numpy's tolerance
accepts a point within the grids exactly if it has the right length, densities can be estimated for the features
used by the classifier and, unless the cost type is `max`, some change is useful. -/
theorem C88_fresh (hso : SetOrderOk ext) (hlog : LogIncreasing ext)
    (hA : mkActionSet X names y custom dflt st = .ok A) (hb : mkBuilder be ct A w t = .ok b)
    (hk : PositiveDensity ext) (hw : ∀ c ∈ w, c = 0 ∨ 1 / 10 ^ 8 < |c|) (hx : WithinGrids A x) :
    (b.setX ext x).2 = .ok () ↔
      x.length = names.length ∧ Estimable ext A w ∧ (ct = .max ∨ UsefulMove A w x) := by
  have hr : b.Reachable ext := .mk (.mk hA) hb
  rw [C88_accepts hso hlog hr (fresh_regular hA hb hk hx)]
  obtain ⟨hn, hcons, hy, hwl, hel⟩ := fresh_elem hA hb
  obtain ⟨-, hcf, -, hct, -, hmin, -⟩ := mkBuilder_parts hb
  have hnl : ∀ n, ¬ Listed b.aset n := by
    rintro n ⟨k, hk, -⟩; rw [hcons] at hk; cases hk
  have hy1 : A.yDesired = 1 ∨ A.yDesired = -1 := (C17_construction hA).2.2.2.2.2.2.2.2.1
  have hlen : b.aset.elems.length = names.length := by rw [hr.ok.aset.wf.length, hn]
  -- usable columns are those with a useful move
  have husable : ∀ j : ℕ, j < names.length → x.length = names.length → (UsableColumn b.aset x j ↔
      ∃ (e : Elem K) (wj xj v : K), A.elems[j]? = some e ∧ w[j]? = some wj ∧ x[j]? = some xj ∧
        v ∈ e.grid.vals ∧ 0 < (A.yDesired : K) * (wj * (v - xj))) := by
    intro j hj hxl
    obtain ⟨e, he⟩ : ∃ e, b.aset.elems[j]? = some e := ⟨_, List.getElem?_eq_getElem (by rw [hlen]; exact hj)⟩
    obtain ⟨e0, wj, he0, hwj, rfl, hc, hact, hdir⟩ := hel j e he
    obtain ⟨xj, hxj⟩ : ∃ xj, x[j]? = some xj := ⟨_, List.getElem?_eq_getElem (by rw [hxl]; exact hj)⟩
    have hnj : b.aset.names[j]? = some names[j] := by rw [hn]; exact List.getElem?_eq_getElem hj
    have hfit := (hx j e0 xj he0 hxj).1
    constructor
    · intro hu
      obtain ⟨h1, -, v, hne, hp, hd⟩ := hu _ _ _ hnj he hxj
      have hd := hd (hnl _) _ rfl
      refine ⟨e0, wj, xj, v, he0, hwj, hxj, (hp.resolve_left hne).2.1, ?_⟩
      have hs : sgn wj ≠ 0 := by
        have := (compatible_parts rfl h1).2
        intro h0; rw [h0, mul_zero] at this; exact this rfl
      rcases lt_trichotomy wj 0 with hneg | h0 | hpos
      · have hs' : sgn wj = -1 := by unfold sgn; rw [if_neg (not_lt.mpr hneg.le), if_pos hneg]
        rw [hs'] at hd
        rcases hy1 with hy1 | hy1
        · rw [hy1] at hd ⊢
          have := lt_of_le_of_ne (hd.2 (by norm_num)) hne
          push_cast; nlinarith
        · rw [hy1] at hd ⊢
          have := lt_of_le_of_ne (hd.1 (by norm_num)) hne.symm
          push_cast; nlinarith
      · exact absurd (by rw [h0]; simp [sgn]) hs
      · have hs' : sgn wj = 1 := by unfold sgn; rw [if_pos hpos]
        rw [hs'] at hd
        rcases hy1 with hy1 | hy1
        · rw [hy1] at hd ⊢
          have := lt_of_le_of_ne (hd.1 (by norm_num)) hne.symm
          push_cast; nlinarith
        · rw [hy1] at hd ⊢
          have := lt_of_le_of_ne (hd.2 (by norm_num)) hne
          push_cast; nlinarith
    · rintro ⟨e', wj', xj', v, he', hwj', hxj', hv, hgain⟩
      rw [he0] at he'; rw [hwj] at hwj'; rw [hxj] at hxj'
      cases he'; cases hwj'; cases hxj'
      have hw0 : wj ≠ 0 := by rintro rfl; simp at hgain
      have hne : v ≠ xj := by rintro rfl; simp at hgain
      intro n' e' xj' hn' he' hx'
      rw [hnj] at hn'; rw [he] at he'; rw [hxj] at hx'
      cases hn'; cases he'; cases hx'
      have hs : sgn wj ≠ 0 := by
        rw [Ne, sgn_eq_zero]; exact hw0
      refine ⟨?_, hfit, v, hne, Or.inr ⟨hact, hv, by
        rw [hdir]; exact ⟨fun h => absurd h (by simp), fun h => absurd h (by simp)⟩⟩, ?_⟩
      · unfold Elem.compatible
        dsimp only
        rw [hact, hdir]
        have h0 : A.yDesired * sgn wj ≠ 0 := mul_ne_zero (by rcases hy1 with h | h <;> rw [h] <;> simp) hs
        simp [h0]
      · intro _ d hd
        cases hd
        rcases lt_trichotomy wj 0 with hneg | h0 | hpos
        · have hs' : sgn wj = -1 := by unfold sgn; rw [if_neg (not_lt.mpr hneg.le), if_pos hneg]
          rw [hs']
          rcases hy1 with hy1 | hy1
          · rw [hy1] at hgain ⊢
            push_cast at hgain
            exact ⟨fun h => absurd h (by norm_num), fun _ => by nlinarith⟩
          · rw [hy1] at hgain ⊢
            push_cast at hgain
            exact ⟨fun _ => by nlinarith, fun h => absurd h (by norm_num)⟩
        · exact absurd h0 hw0
        · have hs' : sgn wj = 1 := by unfold sgn; rw [if_pos hpos]
          rw [hs']
          rcases hy1 with hy1 | hy1
          · rw [hy1] at hgain ⊢
            push_cast at hgain
            exact ⟨fun _ => by nlinarith, fun h => absurd h (by norm_num)⟩
          · rw [hy1] at hgain ⊢
            push_cast at hgain
            exact ⟨fun h => absurd h (by norm_num), fun _ => by nlinarith⟩
  have hcompat : ∀ (e0 : Elem K) (c : K), e0.actionable = true → e0.stepDir = 0 →
      (Elem.compatible { e0 with flip := some (A.yDesired * sgn c) } ≠ some false ↔ c ≠ 0) := by
    intro e0 c hact hdir
    unfold Elem.compatible
    dsimp only
    rw [hact, hdir]
    have h0 : A.yDesired * sgn c = 0 ↔ c = 0 := by
      rw [mul_eq_zero, sgn_eq_zero, or_iff_right]
      rcases hy1 with h | h <;> rw [h] <;> simp
    simp [h0]
  constructor
  · intro h
    have hxl : x.length = names.length := by rw [h.length, hcf, hwl]
    refine ⟨hxl, ?_, ?_⟩
    · intro j e0 c he0 hc hc0
      have hj : j < names.length := by rw [← hwl]; exact (List.getElem?_eq_some_iff.mp hc).1
      obtain ⟨e, he⟩ : ∃ e, b.aset.elems[j]? = some e := ⟨_, List.getElem?_eq_getElem (by rw [hlen]; exact hj)⟩
      obtain ⟨e0', c', he0', hc', rfl, hcache, hact, hdir⟩ := hel j e he
      rw [he0] at he0'; rw [hc] at hc'; cases he0'; cases hc'
      obtain ⟨v, p, hp⟩ := h.scores j _ he ((hcompat e0 c hact hdir).mpr hc0)
      unfold Elem.percentile at hp
      obtain ⟨tb, htb, -⟩ := bind_ok_iff.mp hp
      unfold Elem.table at htb
      dsimp only at htb
      rw [hcache] at htb
      unfold Elem.freshTable Elem.newTable at htb
      simp only [bind_ok_iff] at htb
      obtain ⟨-, -, -, -, -, -, pdf, hpdf, -⟩ := htb
      exact ⟨pdf, hpdf⟩
    rcases h.some with h1 | ⟨j, hj, hu⟩
    · exact Or.inl (hct ▸ h1)
    · rw [hcf, hwl] at hj
      obtain ⟨e, wj, xj, v, h⟩ := (husable j hj hxl).mp hu
      exact Or.inr ⟨j, e, wj, xj, v, h⟩
  · rintro ⟨hxl, hest, hsome⟩
    refine ⟨by rw [hcf, hxl, hwl], ?_, ?_, ?_, ?_, ?_⟩
    · intro j e he hcmp
      obtain ⟨e0, wj, he0, hwj, rfl, hc, hact, hdir⟩ := hel j e he
      obtain ⟨pdf, hpdf⟩ := hest j e0 wj he0 hwj ((hcompat e0 wj hact hdir).mp hcmp)
      have ht : ∃ t, Elem.table ext { e0 with flip := some (A.yDesired * sgn wj) } = .ok t := by
        unfold Elem.table
        dsimp only
        rw [hc]
        exact freshTable_of_kde hpdf
      obtain ⟨t, ht⟩ := ht
      exact ⟨0, t.eval 0, by unfold Elem.percentile; rw [ht]; rfl⟩
    · intro j c hc hu
      have hj : j < names.length := by
        rw [← hwl, ← hcf]; exact (List.getElem?_eq_some_iff.mp hc).1
      obtain ⟨e, wj, xj, v, h1, h2, h3, h4, h5⟩ := (husable j hj hxl).mp hu
      rw [hcf, h2] at hc; cases hc
      rcases hw c (List.mem_of_getElem? h2) with rfl | h
      · simp at h5
      · exact h
    · intro j n e xj _ _ _ hl; exact absurd hl (hnl n)
    · intro j n e xj _ _ _ hl; exact absurd hl (hnl n)
    · rcases hsome with h | ⟨j, e, wj, xj, v, h⟩
      · exact Or.inl (hct.trans h)
      · have hj : j < names.length := by rw [← hwl]; exact (List.getElem?_eq_some_iff.mp h.2.1).1
        exact Or.inr ⟨j, by rw [hcf, hwl]; exact hj, (husable j hj hxl).mpr ⟨e, wj, xj, v, h⟩⟩

end

end Recourse
