import Verif.Props.Rows
import Verif.Props.Optimal
import Verif.Props.Compare
import Verif.Lemmas.Bounds

/-!
# Units of measurement do not matter (C83)
-/

set_option linter.unusedSectionVars false

namespace Recourse

variable {K : Type} [Field K] [LinearOrder K] [IsStrictOrderedRing K] [FloorRing K]

/-! ## Specification -/

/-- A row of data in other units: `u j` is the factor and `z j` the zero of column `j` (as in `F = 9/5 C + 32`). -/
def inUnits (u z : ℕ → K) (x : List K) : List K := x.mapIdx fun j v => u j * v + z j

/-- Changes in other units. -/
def changeInUnits (u : ℕ → K) (a : List K) : List K := a.mapIdx fun j v => u j * v

/-- Coefficients for data in other units. -/
def coefsInUnits (u : ℕ → K) (w : List K) : List K := w.mapIdx fun j v => v / u j

/-- The intercept for data in other units. -/
def interceptInUnits (u z : ℕ → K) (w : List K) (t : K) : K := t - (w.mapIdx fun j v => v / u j * z j).sum

/-- Bounds of a feature in other units: percentiles stay, absolute bounds are converted, and `None`
(the range of the data) stays. -/
inductive BoundsIn (u z : K) : PyVal K → PyVal K → Prop
  | percentile (l h : PyVal K) : BoundsIn u z (.tuple [l, h, .str "percentile"]) (.tuple [l, h, .str "percentile"])
  | absolute (l h : K) : BoundsIn u z (.tuple [.flt l, .flt h]) (.tuple [.flt (u * l + z), .flt (u * h + z)])
  | data : BoundsIn u z .none .none

/-- `A'` is `A` in other units: the same features with the same restrictions, and converted values.  Subset limits speak about
the value 0, so they only make sense if 0 stays 0. -/
structure InUnits (u z : ℕ → K) (A A' : ActionSet K) : Prop where
  pos : ∀ j, 0 < u j
  y : A'.yDesired = A.yDesired
  names : A'.names = A.names
  length : A'.elems.length = A.elems.length
  limits : A'.cons.items = A.cons.items ∧ (A.cons.items = [] ∨ ∀ j, z j = 0)
  feature : ∀ (j : ℕ) (e e' : Elem K), A.elems[j]? = some e → A'.elems[j]? = some e' →
    e'.actionable = e.actionable ∧ e'.stepDir = e.stepDir ∧ e'.grid.vals = e.grid.vals.map fun v => u j * v + z j

/-! ## Scores and recourse -/

theorem dot_inUnits {u z : ℕ → K} (hu : ∀ j, 0 < u j) {w x : List K} (hl : x.length = w.length) (t : K) :
    dot (coefsInUnits u w) (inUnits u z x) + interceptInUnits u z w t = dot w x + t := by
  have key : ∀ (w x : List K) (u z : ℕ → K), (∀ j, 0 < u j) → x.length = w.length →
      dot (coefsInUnits u w) (inUnits u z x) - (w.mapIdx fun j v => v / u j * z j).sum = dot w x := by
    intro w
    induction w with
    | nil => intro x u z _ _; simp [dot, coefsInUnits]
    | cons c w ih =>
      intro x u z hu hl
      cases x with
      | nil => simp at hl
      | cons v x =>
        have h := ih x (fun j => u (j + 1)) (fun j => z (j + 1)) (fun j => hu (j + 1)) (by simpa using hl)
        have h0 := (hu 0).ne'
        unfold dot coefsInUnits inUnits at h ⊢
        simp only [List.mapIdx_cons, List.zipWith_cons_cons, List.sum_cons] at h ⊢
        rw [← h]
        have : c / u 0 * (u 0 * v + z 0) = c * v + c / u 0 * z 0 := by field_simp
        rw [this]; ring
  have := key w x u z hu hl
  unfold interceptInUnits
  rw [← this]; ring

theorem vadd_inUnits (u z : ℕ → K) (x a : List K) :
    vadd (inUnits u z x) (changeInUnits u a) = inUnits u z (vadd x a) := by
  induction x generalizing a u z with
  | nil => rfl
  | cons v x ih =>
    cases a with
    | nil => simp [vadd, inUnits, changeInUnits]
    | cons c a =>
      have h := ih (fun j => u (j + 1)) (fun j => z (j + 1)) a
      unfold vadd inUnits changeInUnits at h ⊢
      simp only [List.mapIdx_cons, List.zipWith_cons_cons, h]
      rw [show u 0 * v + z 0 + u 0 * c = u 0 * (v + c) + z 0 by ring]

theorem numChanged_inUnits {u : ℕ → K} (hu : ∀ j, 0 < u j) (a : List K) :
    numChanged (changeInUnits u a) = numChanged a := by
  unfold numChanged changeInUnits
  induction a generalizing u with
  | nil => rfl
  | cons c a ih =>
    have h := ih (fun j => hu (j + 1))
    rw [List.mapIdx_cons, List.countP_cons, List.countP_cons, h]
    have : (u 0 * c ≠ 0) ↔ c ≠ 0 := by
      rw [Ne, mul_eq_zero, not_or]; exact ⟨And.right, fun h => ⟨(hu 0).ne', h⟩⟩
    simp only [this]

theorem permitted_inUnits {e e' : Elem K} {u z x v : K} (hu : 0 < u)
    (h : e'.actionable = e.actionable ∧ e'.stepDir = e.stepDir ∧ e'.grid.vals = e.grid.vals.map fun v => u * v + z) :
    Permitted e' (u * x + z) (u * v + z) ↔ Permitted e x v := by
  have hinj : ∀ a b : K, u * a + z = u * b + z ↔ a = b := fun a b => by
    rw [add_left_inj, mul_right_inj' hu.ne']
  have hle : ∀ a b : K, u * a + z ≤ u * b + z ↔ a ≤ b := fun a b => by
    rw [add_le_add_iff_right, mul_le_mul_iff_right₀ hu]
  unfold Permitted DirOk
  rw [hinj, h.1, h.2.1, h.2.2, hle, hle]
  have : (u * v + z ∈ e.grid.vals.map fun v => u * v + z) ↔ v ∈ e.grid.vals := by
    rw [List.mem_map]
    constructor
    · rintro ⟨a, ha, he⟩; rw [(hinj a v).mp he] at ha; exact ha
    · exact fun hv => ⟨v, hv, rfl⟩
  rw [this]

/-- **C83**, recourse: an action is recourse in the old units iff the converted action is recourse in the new ones. -/
theorem C83_recourse {u z : ℕ → K} {A A' : ActionSet K} (h : InUnits u z A A') {w x a : List K} {t : K} {lo hi : ℕ}
    (hx : x.length = w.length) :
    IsLimitedRecourse A' (coefsInUnits u w) (interceptInUnits u z w t) (inUnits u z x) (changeInUnits u a) lo hi ↔
      IsLimitedRecourse A w t x a lo hi := by
  have hlen : ∀ l : List K, (inUnits u z l).length = l.length := fun l => by simp [inUnits]
  have hlenc : (changeInUnits u a).length = a.length := by simp [changeInUnits]
  have hp : PermittedAction A' (inUnits u z x) (changeInUnits u a) ↔ PermittedAction A x a := by
    unfold PermittedAction
    rw [hlen, hlenc]
    refine and_congr_right fun hal => ?_
    constructor
    · intro g j e xj aj he hxj haj
      obtain ⟨e', he'⟩ : ∃ e', A'.elems[j]? = some e' := by
        have : j < A'.elems.length := by
          rw [h.length]; exact (List.getElem?_eq_some_iff.mp he).1
        exact ⟨_, List.getElem?_eq_getElem this⟩
      have := g j e' (u j * xj + z j) (u j * aj) he' (by simp [inUnits, List.getElem?_mapIdx, hxj])
        (by simp [changeInUnits, List.getElem?_mapIdx, haj])
      rw [show u j * xj + z j + u j * aj = u j * (xj + aj) + z j by ring,
        permitted_inUnits (h.pos j) (h.feature j e e' he he')] at this
      exact this
    · intro g j e' xj' aj' he' hxj haj
      obtain ⟨e, he⟩ : ∃ e, A.elems[j]? = some e := by
        have : j < A.elems.length := by
          rw [← h.length]; exact (List.getElem?_eq_some_iff.mp he').1
        exact ⟨_, List.getElem?_eq_getElem this⟩
      unfold inUnits at hxj
      unfold changeInUnits at haj
      rw [List.getElem?_mapIdx, Option.map_eq_some_iff] at hxj haj
      obtain ⟨xj, hxj, rfl⟩ := hxj
      obtain ⟨aj, haj, rfl⟩ := haj
      rw [show u j * xj + z j + u j * aj = u j * (xj + aj) + z j by ring,
        permitted_inUnits (h.pos j) (h.feature j e e' he he')]
      exact g j e xj aj he hxj haj
  have hs : a.length = x.length → (ReachesScore A'.yDesired (coefsInUnits u w) (interceptInUnits u z w t) (inUnits u z x)
      (changeInUnits u a) ↔ ReachesScore A.yDesired w t x a) := by
    intro hal
    unfold ReachesScore
    rw [vadd_inUnits, dot_inUnits h.pos (by unfold vadd; rw [List.length_zipWith, hal, min_self, hx]), h.y]
  have hlim : a.length = x.length →
      (RespectsLimits A' (inUnits u z x) (changeInUnits u a) ↔ RespectsLimits A x a) := by
    intro hal
    unfold RespectsLimits
    rw [h.limits.1]
    refine forall_congr' fun k => forall_congr' fun hk => ?_
    rcases h.limits.2 with h0 | h0
    · rw [h0] at hk; cases hk
    · have : numNonzero A' (inUnits u z x) (changeInUnits u a) k.names = numNonzero A x a k.names := by
        unfold numNonzero
        rw [h.names, vadd_inUnits]
        refine List.countP_congr fun n _ => ?_
        unfold inUnits
        rw [List.getD_eq_getElem?_getD, List.getD_eq_getElem?_getD, List.getElem?_mapIdx]
        cases (vadd x a)[A.names.idxOf n]? with
        | none => simp
        | some v => simp [h0, (h.pos _).ne']
      rw [this]
  constructor
  · rintro ⟨⟨g1, g2, g3, g4⟩, g5⟩
    have hal : a.length = x.length := by have := g1.1; rwa [hlen, hlenc] at this
    rw [numChanged_inUnits h.pos] at g2 g3
    exact ⟨⟨hp.mp g1, g2, g3, (hs hal).mp g4⟩, (hlim hal).mp g5⟩
  · rintro ⟨⟨g1, g2, g3, g4⟩, g5⟩
    refine ⟨⟨hp.mpr g1, ?_, ?_, (hs g1.1).mpr g4⟩, (hlim g1.1).mpr g5⟩ <;> rw [numChanged_inUnits h.pos] <;>
      assumption

/-- Every change in the new units is a converted one. -/
theorem changeInUnits_surj {u : ℕ → K} (hu : ∀ j, 0 < u j) (a' : List K) :
    changeInUnits u (a'.mapIdx fun j v => v / u j) = a' := by
  unfold changeInUnits
  refine List.ext_getElem? fun j => ?_
  rw [List.getElem?_mapIdx, List.getElem?_mapIdx]
  cases a'[j]? with
  | none => rfl
  | some v => exact congrArg some (mul_div_cancel₀ v (hu j).ne')

variable {ext : Ext K} {o o' : Oracle K} {b b1 b2 b3 d d1 d2 d3 : Builder K} {i i' : Info K} {x : List K}

/-- **C83** (partial): the same people, data and classifier in other units get the same answer from `fit`: there is
recourse in the one units iff in the other.  Missing from the full property: the situations must be
regular in both units (`C83_tolerance_refuted`), the types of the features must not change
(`C83_integers_refuted`), and costs are only kept if the percentile scores are (`C83_costs_partial`,
`C83_scale_costs_refuted`). -/
theorem C83_feasible_partial {u z : ℕ → K} (hso : SetOrderOk ext) (hlog : LogOk ext) (hb : b.Reachable ext)
    (hd : d.Reachable ext) (hu : InUnits u z b.aset d.aset) (hw : d.coefs = coefsInUnits u b.coefs)
    (ht : d.intercept = interceptInUnits u z b.coefs b.intercept) (hm : d.maxItems = b.maxItems)
    (hreg : Regular ext b x) (hreg' : Regular ext d (inUnits u z x)) (hden : Denied b x)
    (ho : o.Exact) (ho' : o'.Exact) (hx : b.setX ext x = (b1, .ok ()))
    (hx' : d.setX ext (inUnits u z x) = (d1, .ok ())) (hr : b1.Refitted o b2) (hr' : d1.Refitted o' d2)
    (hf : b2.fit o = .ok (b3, i)) (hf' : d2.fit o' = .ok (d3, i')) : i'.feasible = i.feasible := by
  have hlx : x.length = b.coefs.length := by
    have h := setX_status (ext := ext) b x
    rw [hx] at h
    by_contra hne
    rw [if_pos hne] at h
    cases h
  have hden' : Denied d (inUnits u z x) := by
    unfold Denied at hden ⊢
    rw [hw, ht, dot_inUnits hu.pos hlx, hu.y]
    exact hden
  have h1 := (C25_no_recourse hso hlog ho hb hreg hden hx hr hf).1
  have h2 := (C25_no_recourse hso hlog ho' hd hreg' hden' hx' hr' hf').1
  rw [hw, ht, hm] at h2
  have key : (∃ a, IsLimitedRecourse d.aset (coefsInUnits u b.coefs) (interceptInUnits u z b.coefs b.intercept)
      (inUnits u z x) a 1 b.maxItems) ↔ ∃ a, IsLimitedRecourse b.aset b.coefs b.intercept x a 1 b.maxItems := by
    constructor
    · rintro ⟨a, ha⟩
      rw [← changeInUnits_surj hu.pos a, C83_recourse hu hlx] at ha
      exact ⟨_, ha⟩
    · rintro ⟨a, ha⟩
      exact ⟨_, (C83_recourse hu hlx).mpr ha⟩
  rw [key, ← h1] at h2
  cases h3 : i.feasible <;> cases h4 : i'.feasible <;> rw [h3, h4] at h2 <;> simp at h2 ⊢

/-! ## The data in other units -/

/-- A conversion of one column: `v ↦ u * v + z` with `0 < u`. -/
abbrev conv (u z v : K) : K := u * v + z

theorem conv_le {u z : K} (hu : 0 < u) (a b : K) : conv u z a ≤ conv u z b ↔ a ≤ b := by
  unfold conv; rw [add_le_add_iff_right, mul_le_mul_iff_right₀ hu]

theorem conv_inj {u z : K} (hu : 0 < u) (a b : K) : conv u z a = conv u z b ↔ a = b := by
  unfold conv; rw [add_left_inj, mul_right_inj' hu.ne']

theorem npSort_conv {u z : K} (hu : 0 < u) (l : List K) : npSort (l.map (conv u z)) = (npSort l).map (conv u z) := by
  have hp : (npSort (l.map (conv u z))).Perm ((npSort l).map (conv u z)) := by
    unfold npSort
    exact (List.perm_insertionSort _ _).trans ((List.perm_insertionSort _ l).symm.map _)
  refine List.Perm.eq_of_pairwise (le := (· ≤ ·)) ?_ (npSort_sorted _) ?_ hp
  · intro a b _ _ h1 h2; exact le_antisymm h1 h2
  · rw [List.pairwise_map]
    exact (npSort_sorted l).imp fun h => (conv_le hu _ _).mpr h

theorem npPercentile_conv {u z : K} (hu : 0 < u) {l : List K} (hl : 1 ≤ l.length) {q : K} (h0 : 0 ≤ q) (h1 : q ≤ 100) :
    npPercentile (l.map (conv u z)) q = conv u z (npPercentile l q) := by
  unfold npPercentile
  rw [npSort_conv hu]
  dsimp only
  rw [List.length_map]
  have hn : 1 ≤ (npSort l).length := by rw [length_npSort]; exact hl
  set v := npSort l
  set pos : K := q / 100 * ((v.length : K) - 1) with hpos
  have hn' : (0 : K) ≤ (v.length : K) - 1 := by
    have : (1 : K) ≤ (v.length : K) := by exact_mod_cast hn
    linarith
  have hple : pos ≤ (v.length : K) - 1 := by
    rw [hpos]
    have : q / 100 ≤ 1 := by rw [div_le_one (by norm_num)]; exact h1
    nlinarith
  have hlo : ⌊pos⌋.toNat < v.length := by
    have h2 : ⌊pos⌋ ≤ (v.length : ℤ) - 1 := by
      have : (⌊pos⌋ : K) ≤ (((v.length : ℤ) - 1 : ℤ) : K) := by
        push_cast; exact le_trans (Int.floor_le pos) hple
      exact_mod_cast this
    omega
  have hhi : min (⌊pos⌋.toNat + 1) (v.length - 1) < v.length := by omega
  have hget : ∀ k : ℕ, k < v.length → (v.map (conv u z)).getD k 0 = conv u z (v.getD k 0) := by
    intro k hk
    rw [List.getD_eq_getElem _ _ (by rw [List.length_map]; exact hk), List.getD_eq_getElem _ _ hk, List.getElem_map]
  rw [hget _ hlo, hget _ hhi]
  unfold conv
  ring

theorem foldl_min_conv {u z : K} (hu : 0 < u) (l : List K) (a : K) :
    (l.map (conv u z)).foldl min (conv u z a) = conv u z (l.foldl min a) := by
  induction l generalizing a with
  | nil => rfl
  | cons b l ih =>
    rw [List.map_cons, List.foldl_cons, List.foldl_cons, ← ih]
    congr 1
    exact ((monotone_iff_forall_lt.mpr fun a b h => ((conv_le hu a b).mpr h.le)).map_min (f := conv u z)).symm

theorem foldl_max_conv {u z : K} (hu : 0 < u) (l : List K) (a : K) :
    (l.map (conv u z)).foldl max (conv u z a) = conv u z (l.foldl max a) := by
  induction l generalizing a with
  | nil => rfl
  | cons b l ih =>
    rw [List.map_cons, List.foldl_cons, List.foldl_cons, ← ih]
    congr 1
    exact ((monotone_iff_forall_lt.mpr fun a b h => ((conv_le hu a b).mpr h.le)).map_max (f := conv u z)).symm

theorem npMin_conv {u z : K} (hu : 0 < u) {l : List K} (hl : 1 ≤ l.length) :
    npMin (l.map (conv u z)) = conv u z (npMin l) := by
  cases l with
  | nil => simp at hl
  | cons a l => exact foldl_min_conv hu l a

theorem npMax_conv {u z : K} (hu : 0 < u) {l : List K} (hl : 1 ≤ l.length) :
    npMax (l.map (conv u z)) = conv u z (npMax l) := by
  cases l with
  | nil => simp at hl
  | cons a l => exact foldl_max_conv hu l a

/-- A bound in other units. -/
def Bound.inUnits (u z : K) (b : Bound K) : Bound K := { b with lb := conv u z b.lb, ub := conv u z b.ub }

/-- A real feature in other units. -/
def Elem.inUnits (u z : K) (e : Elem K) : Elem K :=
  { e with values := e.values.map (conv u z), bounds := e.bounds.inUnits u z,
           grid := { e.grid with vals := e.grid.vals.map (conv u z) } }

theorem mkBound_conv {u z : K} (hu : 0 < u) {v : List K} (hv : 1 ≤ v.length) (h1 : determineType v = .float)
    (h2 : determineType (v.map (conv u z)) = .float) {bt l h l' h' : PyVal K}
    (hb : boundPair .percentile l' h' (some (v.map (conv u z))) = (boundPair .percentile l h (some v)).map
        (fun p => (conv u z p.1, conv u z p.2.1, p.2.2.1, p.2.2.2)) ∨ bt = .str "absolute")
    (hb' : boundPair .absolute l' h' (some (v.map (conv u z))) = (boundPair .absolute l h (some v)).map
        (fun p => (conv u z p.1, conv u z p.2.1, p.2.2.1, p.2.2.2)) ∨ bt = .str "percentile") :
    mkBound bt l' h' (some (v.map (conv u z))) none = (mkBound bt l h (some v) none).map (Bound.inUnits u z) := by
  unfold mkBound boundVType
  dsimp only
  rw [h1, h2]
  dsimp only [bind, Except.bind]
  cases hbt : parseBType bt with
  | error e => rfl
  | ok b =>
    dsimp only
    have hp : boundPair b l' h' (some (v.map (conv u z))) = (boundPair b l h (some v)).map
        (fun p => (conv u z p.1, conv u z p.2.1, p.2.2.1, p.2.2.2)) := by
      cases b with
      | percentile =>
        rcases hb with hb | hb
        · exact hb
        · rw [hb] at hbt; simp [parseBType] at hbt
      | absolute =>
        rcases hb' with hb | hb
        · exact hb
        · rw [hb] at hbt; simp [parseBType] at hbt
    rw [hp]
    cases boundPair b l h (some v) with
    | error e => rfl
    | ok p =>
      dsimp only [Except.map]
      simp only [conv_le hu]
      by_cases hle : p.1 ≤ p.2.1
      · simp [pyAssert, hle, Bound.inUnits]
      · simp [pyAssert, hle]

theorem parseBounds_conv {u z : K} (hu : 0 < u) {v : List K} (hv : 1 ≤ v.length) (h1 : determineType v = .float)
    (h2 : determineType (v.map (conv u z)) = .float) {b b' : PyVal K} (hb : BoundsIn u z b b') :
    parseBounds (v.map (conv u z)) b' = (parseBounds v b).map (Bound.inUnits u z) := by
  cases hb with
  | percentile l h =>
    refine mkBound_conv hu hv h1 h2 (Or.inl ?_) (Or.inr rfl)
    unfold boundPair
    dsimp only [bind, Except.bind]
    cases boundNum l with
    | error e => rfl
    | ok a =>
      cases boundNum h with
      | error e => rfl
      | ok c =>
        dsimp only
        by_cases ha : 0 ≤ a ∧ a ≤ 100
        · by_cases hc : 0 ≤ c ∧ c ≤ 100
          · simp [pyAssert, ha, hc, Except.map, npPercentile_conv hu hv ha.1 ha.2, npPercentile_conv hu hv hc.1 hc.2]
          · simp [pyAssert, ha, hc, Except.map]
        · simp [pyAssert, ha, Except.map]
  | absolute l h =>
    exact mkBound_conv hu hv h1 h2 (Or.inr rfl) (Or.inl rfl)
  | data =>
    refine mkBound_conv hu hv h1 h2 (Or.inr rfl) (Or.inl ?_)
    unfold boundPair absNum
    dsimp only [bind, Except.bind, Except.map]
    rw [npMin_conv hu hv, npMax_conv hu hv]

theorem mkGrid_conv {u z : K} (hu : 0 < u) (lb ub s : K) : mkGrid .float (conv u z lb) (conv u z ub) .relative s =
    (mkGrid .float lb ub .relative s).map fun g => { g with vals := g.vals.map (conv u z) } := by
  have hstep : s * (conv u z ub - conv u z lb) = u * (s * (ub - lb)) := by unfold conv; ring
  unfold mkGrid gridParams
  simp only [reduceCtorEq, if_false, if_true, hstep]
  unfold arange
  by_cases h0 : s * (ub - lb) = 0
  · rw [if_pos h0, if_pos (by rw [h0, mul_zero])]; rfl
  · rw [if_neg h0, if_neg (mul_ne_zero hu.ne' h0)]
    dsimp only [bind, Except.bind, Except.map]
    have hc : (conv u z ub + u * (s * (ub - lb)) - conv u z lb) / (u * (s * (ub - lb))) =
        (ub + s * (ub - lb) - lb) / (s * (ub - lb)) := by
      rw [show conv u z ub + u * (s * (ub - lb)) - conv u z lb = u * (ub + s * (ub - lb) - lb) by unfold conv; ring,
        mul_div_mul_left _ _ hu.ne']
    rw [hc, List.map_map]
    congr 2
    refine List.map_congr_left fun i _ => ?_
    unfold Function.comp conv
    ring

theorem mkElem_conv {u z : K} (hu : 0 < u) {v : List K} (h1 : determineType v = .float)
    (h2 : determineType (v.map (conv u z)) = .float) {b b' : PyVal K} (hb : BoundsIn u z b b') (n : String) (s : PyVal K) :
    mkElem n (v.map (conv u z)) b' (some .float) true (.str "relative") 0 s =
      (mkElem n v b (some .float) true (.str "relative") 0 s).map (Elem.inUnits u z) := by
  unfold mkElem
  rw [npSort_conv hu]
  dsimp only [bind, Except.bind]
  cases pyAssert (decide (1 ≤ n.length)) with
  | error e => rfl
  | ok _ =>
    dsimp only
    by_cases hl : 1 ≤ (npSort v).length
    · have hl' : 1 ≤ ((npSort v).map (conv u z)).length := by rw [List.length_map]; exact hl
      have ht : pyAssert true = .ok () := rfl
      rw [decide_eq_true hl, decide_eq_true hl', ht]
      dsimp only
      have hv1 : determineType (npSort v) = .float := by
        rw [← h1]; exact determineType_perm (List.perm_insertionSort _ v)
      have hv2 : determineType ((npSort v).map (conv u z)) = .float := by
        rw [← h2]; exact determineType_perm ((List.perm_insertionSort _ v).map _)
      rw [parseBounds_conv hu hl hv1 hv2 hb]
      cases parseBounds (npSort v) b with
      | error e => rfl
      | ok bd =>
        have hst : parseStepType (.str "relative" : PyVal K) = .ok .relative := rfl
        rw [hst]
        dsimp only [Except.map]
        cases parseStepSize .relative s with
        | error e => rfl
        | ok st =>
          dsimp only [Option.getD]
          have hg : mkGrid .float (bd.inUnits u z).lb (bd.inUnits u z).ub .relative st =
              (mkGrid .float bd.lb bd.ub .relative st).map fun g => { g with vals := g.vals.map (conv u z) } :=
            mkGrid_conv hu bd.lb bd.ub st
          rw [hg]
          cases mkGrid .float bd.lb bd.ub .relative st with
          | error e => rfl
          | ok g =>
            dsimp only [Except.map]
            have hinj : Function.Injective (conv u z) := fun a b h => (conv_inj hu a b).mp h
            have hrep : ∀ e : Elem K, (e.inUnits u z).checkRep = e.checkRep := by
              intro e
              unfold Elem.checkRep Elem.inUnits Bound.inUnits
              simp only [conv_le hu, List.nodup_map_iff hinj, List.pairwise_map]
            have := hrep ⟨n, npSort v, .float, true, bd, .relative, st, sgn (0 : K), none, g, none, []⟩
            unfold Elem.inUnits at this
            dsimp only at this
            rw [this]
            cases Elem.checkRep ⟨n, npSort v, .float, true, bd, .relative, st, sgn (0 : K), none, g, none, []⟩ <;> rfl
    · have hl' : ¬ 1 ≤ ((npSort v).map (conv u z)).length := by rw [List.length_map]; exact hl
      rw [decide_eq_false hl, decide_eq_false hl']
      rfl

/-! ## Integer columns: shifts by integers -/

theorem floor_shift (k : ℤ) (v : K) : ((⌊conv 1 (k : K) v⌋ : ℤ) : K) = conv 1 (k : K) (⌊v⌋ : K) := by
  unfold conv
  rw [one_mul, Int.floor_add_intCast]
  push_cast
  ring

theorem ceil_shift (k : ℤ) (v : K) : ((⌈conv 1 (k : K) v⌉ : ℤ) : K) = conv 1 (k : K) (⌈v⌉ : K) := by
  unfold conv
  rw [one_mul, Int.ceil_add_intCast]
  push_cast
  ring

theorem mkBound_shift {k : ℤ} {v : List K} (h1 : determineType v = .int)
    (h2 : determineType (v.map (conv 1 (k : K))) = .int) {bt l h l' h' : PyVal K}
    (hb : boundPair .percentile l' h' (some (v.map (conv 1 (k : K)))) = (boundPair .percentile l h (some v)).map
        (fun p => (conv 1 (k : K) p.1, conv 1 (k : K) p.2.1, p.2.2.1, p.2.2.2)) ∨ bt = .str "absolute")
    (hb' : boundPair .absolute l' h' (some (v.map (conv 1 (k : K)))) = (boundPair .absolute l h (some v)).map
        (fun p => (conv 1 (k : K) p.1, conv 1 (k : K) p.2.1, p.2.2.1, p.2.2.2)) ∨ bt = .str "percentile") :
    mkBound bt l' h' (some (v.map (conv 1 (k : K)))) none = (mkBound bt l h (some v) none).map (Bound.inUnits 1 (k : K)) := by
  have hu : (0 : K) < 1 := one_pos
  unfold mkBound boundVType
  dsimp only
  rw [h1, h2]
  dsimp only [bind, Except.bind]
  cases hbt : parseBType bt with
  | error e => rfl
  | ok b =>
    dsimp only
    have hp : boundPair b l' h' (some (v.map (conv 1 (k : K)))) = (boundPair b l h (some v)).map
        (fun p => (conv 1 (k : K) p.1, conv 1 (k : K) p.2.1, p.2.2.1, p.2.2.2)) := by
      cases b with
      | percentile =>
        rcases hb with hb | hb
        · exact hb
        · rw [hb] at hbt; simp [parseBType] at hbt
      | absolute =>
        rcases hb' with hb | hb
        · exact hb
        · rw [hb] at hbt; simp [parseBType] at hbt
    rw [hp]
    cases boundPair b l h (some v) with
    | error e => rfl
    | ok p =>
      dsimp only [Except.map]
      simp only [conv_le hu]
      by_cases hle : p.1 ≤ p.2.1
      · rw [decide_eq_true hle]
        simp only [pyAssert, if_true, Bound.inUnits]
        rw [floor_shift, ceil_shift]
      · simp [pyAssert, hle]

theorem parseBounds_shift {k : ℤ} {v : List K} (hv : 1 ≤ v.length) (h1 : determineType v = .int)
    (h2 : determineType (v.map (conv 1 (k : K))) = .int) {b b' : PyVal K} (hb : BoundsIn 1 (k : K) b b') :
    parseBounds (v.map (conv 1 (k : K))) b' = (parseBounds v b).map (Bound.inUnits 1 (k : K)) := by
  have hu : (0 : K) < 1 := one_pos
  cases hb with
  | percentile l h =>
    refine mkBound_shift h1 h2 (Or.inl ?_) (Or.inr rfl)
    unfold boundPair
    dsimp only [bind, Except.bind]
    cases boundNum l with
    | error e => rfl
    | ok a =>
      cases boundNum h with
      | error e => rfl
      | ok c =>
        dsimp only
        by_cases ha : 0 ≤ a ∧ a ≤ 100
        · by_cases hc : 0 ≤ c ∧ c ≤ 100
          · simp [pyAssert, ha, hc, Except.map, npPercentile_conv hu hv ha.1 ha.2, npPercentile_conv hu hv hc.1 hc.2]
          · simp [pyAssert, ha, hc, Except.map]
        · simp [pyAssert, ha, Except.map]
  | absolute l h =>
    exact mkBound_shift h1 h2 (Or.inr rfl) (Or.inl rfl)
  | data =>
    refine mkBound_shift h1 h2 (Or.inr rfl) (Or.inl ?_)
    unfold boundPair absNum
    dsimp only [bind, Except.bind, Except.map]
    rw [npMin_conv hu hv, npMax_conv hu hv]

theorem mkGrid_shift (k : ℤ) (lb ub s : K) : mkGrid .int (conv 1 (k : K) lb) (conv 1 (k : K) ub) .relative s =
    (mkGrid .int lb ub .relative s).map fun g => { g with vals := g.vals.map (conv 1 (k : K)) } := by
  unfold mkGrid gridParams
  simp only [if_true]
  rw [floor_shift, ceil_shift, show conv 1 (k : K) (⌈ub⌉ : K) - conv 1 (k : K) (⌊lb⌋ : K) = (⌈ub⌉ : K) - (⌊lb⌋ : K) by
    unfold conv; ring]
  set st : ℤ := ⌈s * ((⌈ub⌉ : K) - (⌊lb⌋ : K))⌉ with hst
  unfold arange
  by_cases h0 : (st : K) = 0
  · rw [if_pos h0, if_pos h0]; rfl
  · rw [if_neg h0, if_neg h0]
    dsimp only [bind, Except.bind, Except.map]
    rw [show conv 1 (k : K) (⌈ub⌉ : K) + (st : K) - conv 1 (k : K) (⌊lb⌋ : K) = (⌈ub⌉ : K) + (st : K) - (⌊lb⌋ : K) by unfold conv; ring]
    congr 2
    rw [List.map_map, List.map_map, List.map_map]
    refine List.map_congr_left fun i _ => ?_
    unfold Function.comp
    have e1 : conv 1 (k : K) (⌊lb⌋ : K) + (i : K) * (st : K) = ((⌊lb⌋ + k + i * st : ℤ) : K) := by
      unfold conv; push_cast; ring
    have e2 : (⌊lb⌋ : K) + (i : K) * (st : K) = ((⌊lb⌋ + i * st : ℤ) : K) := by push_cast; ring
    dsimp only
    rw [e1, e2, trunc_intCast, trunc_intCast]
    unfold conv
    push_cast
    ring

theorem mkElem_shift {k : ℤ} {v : List K} (h1 : determineType v = .int)
    (h2 : determineType (v.map (conv 1 (k : K))) = .int) {b b' : PyVal K} (hb : BoundsIn 1 (k : K) b b') (n : String) (s : PyVal K) :
    mkElem n (v.map (conv 1 (k : K))) b' (some .int) true (.str "relative") 0 s =
      (mkElem n v b (some .int) true (.str "relative") 0 s).map (Elem.inUnits 1 (k : K)) := by
  have hu : (0 : K) < 1 := one_pos
  unfold mkElem
  rw [npSort_conv hu]
  dsimp only [bind, Except.bind]
  cases pyAssert (decide (1 ≤ n.length)) with
  | error e => rfl
  | ok _ =>
    dsimp only
    by_cases hl : 1 ≤ (npSort v).length
    · have hl' : 1 ≤ ((npSort v).map (conv 1 (k : K))).length := by rw [List.length_map]; exact hl
      have ht : pyAssert true = .ok () := rfl
      rw [decide_eq_true hl, decide_eq_true hl', ht]
      dsimp only
      have hv1 : determineType (npSort v) = .int := by
        rw [← h1]; exact determineType_perm (List.perm_insertionSort _ v)
      have hv2 : determineType ((npSort v).map (conv 1 (k : K))) = .int := by
        rw [← h2]; exact determineType_perm ((List.perm_insertionSort _ v).map _)
      rw [parseBounds_shift hl hv1 hv2 hb]
      cases parseBounds (npSort v) b with
      | error e => rfl
      | ok bd =>
        have hst : parseStepType (.str "relative" : PyVal K) = .ok .relative := rfl
        rw [hst]
        dsimp only [Except.map]
        cases parseStepSize .relative s with
        | error e => rfl
        | ok st =>
          dsimp only [Option.getD]
          have hg : mkGrid .int (bd.inUnits 1 (k : K)).lb (bd.inUnits 1 (k : K)).ub .relative st =
              (mkGrid .int bd.lb bd.ub .relative st).map fun g => { g with vals := g.vals.map (conv 1 (k : K)) } :=
            mkGrid_shift k bd.lb bd.ub st
          rw [hg]
          cases mkGrid .int bd.lb bd.ub .relative st with
          | error e => rfl
          | ok g =>
            dsimp only [Except.map]
            have hinj : Function.Injective (conv 1 (k : K)) := fun a b h => (conv_inj hu a b).mp h
            have hrep : ∀ e : Elem K, (e.inUnits 1 (k : K)).checkRep = e.checkRep := by
              intro e
              unfold Elem.checkRep Elem.inUnits Bound.inUnits
              simp only [conv_le hu, List.nodup_map_iff hinj, List.pairwise_map]
            have := hrep ⟨n, npSort v, .int, true, bd, .relative, st, sgn (0 : K), none, g, none, []⟩
            unfold Elem.inUnits at this
            dsimp only at this
            rw [this]
            cases Elem.checkRep ⟨n, npSort v, .int, true, bd, .relative, st, sgn (0 : K), none, g, none, []⟩ <;> rfl
    · have hl' : ¬ 1 ≤ ((npSort v).map (conv 1 (k : K))).length := by rw [List.length_map]; exact hl
      rw [decide_eq_false hl, decide_eq_false hl']
      rfl

/-- Column `j`, called `n`, can be given in other units: either it keeps its units (and the bounds asked for it), or it is
real-valued in both and the bounds asked for it are converted, or it has integers, is not binary in either, and is shifted by an
integer. -/
def ColumnInUnits (X : List (List K)) (u z : ℕ → K) (custom custom' : List (String × PyVal K)) (dflt : PyVal K) (j : ℕ)
    (n : String) : Prop :=
  (u j = 1 ∧ z j = 0 ∧ custom'.lookup n = custom.lookup n) ∨
  ((∃ r ∈ X, ∃ v : K, r[j]? = some v ∧ ∀ k : ℤ, (k : K) ≠ v) ∧
    (∃ r ∈ X, ∃ v : K, r[j]? = some v ∧ ∀ k : ℤ, (k : K) ≠ u j * v + z j) ∧
    BoundsIn (u j) (z j) ((custom.lookup n).getD dflt) ((custom'.lookup n).getD dflt)) ∨
  (u j = 1 ∧ (∃ k : ℤ, z j = k) ∧ (∀ r ∈ X, ∀ v : K, r[j]? = some v → ∃ k : ℤ, (k : K) = v) ∧
    (∃ r ∈ X, ∃ v : K, r[j]? = some v ∧ v ≠ 0 ∧ v ≠ 1) ∧ (∃ r ∈ X, ∃ v : K, r[j]? = some v ∧ v + z j ≠ 0 ∧ v + z j ≠ 1) ∧
    BoundsIn (u j) (z j) ((custom.lookup n).getD dflt) ((custom'.lookup n).getD dflt))

/-- The whole set in other units. -/
def ActionSet.inUnits (u z : ℕ → K) (A : ActionSet K) : ActionSet K :=
  { A with elems := A.elems.mapIdx fun j e => e.inUnits (u j) (z j) }

theorem inUnits_one (e : Elem K) : e.inUnits 1 0 = e := by
  have h : conv (1 : K) 0 = id := by funext v; simp [conv]
  unfold Elem.inUnits Bound.inUnits
  rw [h]
  simp

theorem column_inUnits {X : List (List K)} {u z : ℕ → K} {j : ℕ} (h : ∀ r ∈ X, j < r.length) :
    column (X.map (inUnits u z)) j = (column X j).map (conv (u j) (z j)) := by
  unfold column
  rw [List.map_map, List.map_map]
  refine List.map_congr_left fun r hr => ?_
  have := h r hr
  unfold Function.comp inUnits
  dsimp only
  rw [List.getD_eq_getElem _ _ (by rw [List.length_mapIdx]; exact this), List.getD_eq_getElem _ _ this,
    List.getElem_mapIdx]

theorem determineType_float {l : List K} {v : K} (hv : v ∈ l) (h : ∀ k : ℤ, (k : K) ≠ v) : determineType l = .float := by
  unfold determineType
  rw [if_neg]
  intro h'
  obtain ⟨k, hk⟩ := isIntegral_iff.mp (List.all_eq_true.mp h' v hv)
  exact h k hk

theorem determineType_whole {l : List K} {v : K} (hl : ∀ w ∈ l, ∃ k : ℤ, (k : K) = w) (hv : v ∈ l) (h0 : v ≠ 0) (h1 : v ≠ 1) :
    determineType l = .int := by
  unfold determineType
  rw [if_pos (List.all_eq_true.mpr fun w hw => isIntegral_iff.mpr (hl w hw)), if_neg]
  intro h
  have := of_decide_eq_true (List.all_eq_true.mp h v hv)
  exact this.elim h0 h1

theorem mem_column {X : List (List K)} {r : List K} (hr : r ∈ X) {j : ℕ} {v : K} (hv : r[j]? = some v) :
    v ∈ column X j := by
  unfold column
  refine List.mem_map.mpr ⟨r, hr, ?_⟩
  rw [List.getD_eq_getElem?_getD, hv]; rfl

theorem mkColumn_inUnits {X : List (List K)} {u z : ℕ → K} {custom custom' : List (String × PyVal K)} {dflt : PyVal K}
    {j : ℕ} {n : String} (hu : 0 < u j) (hX : ∀ r ∈ X, j < r.length) (hc : ColumnInUnits X u z custom custom' dflt j n) :
    mkColumn (X.map (inUnits u z)) custom' dflt (.str "relative") j n =
      (mkColumn X custom dflt (.str "relative") j n).map (Elem.inUnits (u j) (z j)) := by
  unfold mkColumn
  dsimp only
  rw [column_inUnits hX]
  rcases hc with ⟨h1, h2, h3⟩ | ⟨⟨r, hr, v, hv, hf⟩, ⟨r', hr', v', hv', hf'⟩, hb⟩ |
    ⟨h1, ⟨k, hk⟩, hint, ⟨r, hr, v, hv, hv0, hv1⟩, ⟨r', hr', v', hv', hv0', hv1'⟩, hb⟩
  · have hid : conv (1 : K) 0 = id := by funext v; simp [conv]
    have hid' : Elem.inUnits (1 : K) 0 = id := by funext e; exact inUnits_one e
    have hm : ∀ r : Except Err (Elem K), Except.map id r = r := fun r => by cases r <;> rfl
    rw [h1, h2, h3, hid, hid', List.map_id, hm]
  · have hd1 := determineType_float (mem_column hr hv) hf
    have hd2 : determineType ((column X j).map (conv (u j) (z j))) = .float :=
      determineType_float (List.mem_map_of_mem (mem_column hr' hv')) hf'
    rw [hd1, hd2]
    exact mkElem_conv hu hd1 hd2 hb n _
  · rw [h1, hk] at hb ⊢
    rw [hk] at hv0' hv1'
    have hcol : ∀ w ∈ column X j, ∃ k : ℤ, (k : K) = w := by
      intro w hw
      unfold column at hw
      obtain ⟨q, hq, rfl⟩ := List.mem_map.mp hw
      refine hint q hq _ ?_
      rw [List.getElem?_eq_getElem (hX q hq), List.getD_eq_getElem _ _ (hX q hq)]
    have hd1 : determineType (column X j) = .int := determineType_whole hcol (mem_column hr hv) hv0 hv1
    have hd2 : determineType ((column X j).map (conv 1 (k : K))) = .int := by
      refine determineType_whole (v := conv 1 (k : K) v') ?_ (List.mem_map_of_mem (mem_column hr' hv')) ?_ ?_
      · intro w hw
        obtain ⟨q, hq, rfl⟩ := List.mem_map.mp hw
        obtain ⟨m, rfl⟩ := hcol q hq
        exact ⟨m + k, by unfold conv; push_cast; ring⟩
      · unfold conv; rwa [one_mul]
      · unfold conv; rwa [one_mul]
    rw [hd1, hd2]
    exact mkElem_shift hd1 hd2 hb n _

theorem mapM_inUnits {α : Type} (F F' : α → Except Err (Elem K)) (c : ℕ → Elem K → Elem K) : ∀ (l : List α) (k : ℕ),
    (∀ (i : ℕ) (a : α), l[i]? = some a → F' a = (F a).map (c (k + i))) →
    l.mapM F' = (l.mapM F).map fun es => es.mapIdx fun i e => c (k + i) e
  | [], _, _ => rfl
  | a :: l, k, h => by
    have h0 := h 0 a rfl
    have ih := mapM_inUnits F F' c l (k + 1) fun i b hb => by
      have := h (i + 1) b (by simpa using hb)
      rw [this, show k + (i + 1) = k + 1 + i by omega]
    rw [List.mapM_cons, List.mapM_cons, h0, ih]
    cases F a with
    | error e => rfl
    | ok v =>
      cases l.mapM F with
      | error e => rfl
      | ok es =>
        have hk : ∀ i, k + (i + 1) = k + 1 + i := fun i => by omega
        dsimp only [Except.map, bind, Except.bind, pure, Except.pure]
        rw [List.mapIdx_cons]
        rw [show (fun i e => c (k + 1 + i) e) = fun i e => c (k + (i + 1)) e from
          funext fun i => funext fun e => by rw [hk i]]

theorem mkActionSet_inUnits {X : List (List K)} {u z : ℕ → K} (hu : ∀ j, 0 < u j) {names : List String} {y : Int}
    {custom custom' : List (String × PyVal K)} {dflt : PyVal K}
    (hc : ∀ (j : ℕ) (n : String), names[j]? = some n → ColumnInUnits X u z custom custom' dflt j n) :
    mkActionSet (X.map (inUnits u z)) names y custom' dflt (.str "relative") =
      (mkActionSet X names y custom dflt (.str "relative")).map (ActionSet.inUnits u z) := by
  unfold mkActionSet
  have hall : (X.map (inUnits u z)).all (fun r => decide (r.length = names.length)) =
      X.all fun r => decide (r.length = names.length) := by
    rw [List.all_map]
    congr 1
    funext r
    simp [inUnits]
  rw [List.length_map, hall]
  dsimp only [bind, Except.bind]
  cases pyAssert (checkVariableNames names) with
  | error e => rfl
  | ok _ =>
    dsimp only
    cases pyAssert (decide (1 ≤ X.length)) with
    | error e => rfl
    | ok _ =>
      dsimp only
      cases hX : pyAssert (X.all fun r => decide (r.length = names.length)) with
      | error e => rfl
      | ok _ =>
        dsimp only
        have hX' : ∀ r ∈ X, r.length = names.length := by
          intro r hr
          have := pyAssert_ok_iff.mp hX
          exact of_decide_eq_true (List.all_eq_true.mp this r hr)
        rw [mapM_inUnits (fun p : String × ℕ => mkColumn X custom dflt (.str "relative") p.2 p.1) _
          (fun j e => e.inUnits (u j) (z j)) names.zipIdx 0 ?_]
        · cases names.zipIdx.mapM (fun p : String × ℕ => mkColumn X custom dflt (.str "relative") p.2 p.1) with
          | error e => rfl
          | ok es =>
            simp only [Except.map, Nat.zero_add]
            cases pyAssert (decide (y = -1 ∨ y = 0 ∨ y = 1)) <;> rfl
        · intro i p hp
          rw [List.getElem?_zipIdx, Option.map_eq_some_iff] at hp
          obtain ⟨n, hn, rfl⟩ := hp
          have hi : i < names.length := (List.getElem?_eq_some_iff.mp hn).1
          simp only [Nat.zero_add]
          exact mkColumn_inUnits (hu i) (fun r hr => by rw [hX' r hr]; exact hi) (hc i n hn)

/-- **C83**, the data: an action set made from the data in other units is the set in other units (or the same error),
if every column that changes its units is real-valued in both, or has integers and is shifted by an integer, and relative steps are used
(the default). -/
theorem C83_new {X : List (List K)} {u z : ℕ → K} (hu : ∀ j, 0 < u j) {names : List String} {y : Int}
    {custom custom' : List (String × PyVal K)} {dflt : PyVal K}
    (hc : ∀ (j : ℕ) (n : String), names[j]? = some n → ColumnInUnits X u z custom custom' dflt j n) :
    (∀ A, mkActionSet X names y custom dflt (.str "relative") = .ok A →
      ∃ A', mkActionSet (X.map (inUnits u z)) names y custom' dflt (.str "relative") = .ok A' ∧ InUnits u z A A') ∧
    (∀ e, mkActionSet X names y custom dflt (.str "relative") = .error e →
      mkActionSet (X.map (inUnits u z)) names y custom' dflt (.str "relative") = .error e) := by
  rw [mkActionSet_inUnits hu hc]
  constructor
  · intro A hA
    rw [hA]
    refine ⟨_, rfl, hu, rfl, rfl, by simp [ActionSet.inUnits], ⟨rfl, Or.inl ?_⟩, ?_⟩
    · rw [(mkActionSet_spec hA).2.2.2.2.2.2.1]; rfl
    · intro j e e' he he'
      unfold ActionSet.inUnits at he'
      rw [List.getElem?_mapIdx, he] at he'
      rw [← Option.some.inj he']
      exact ⟨rfl, rfl, rfl⟩
  · intro e he
    rw [he]; rfl

/-- Aligning a set in other units: it works, gives the same set in other units, and every feature gets the same flip direction. -/
theorem C83_align {u z : ℕ → K} {A A' : ActionSet K} (h : InUnits u z A A') {w : List K} (B : ActionSet K)
    (hB : A.setAlignment w = .ok B) : ∃ B', A'.setAlignment (coefsInUnits u w) = .ok B' ∧ InUnits u z B B' ∧
      ∀ (j : ℕ) (e e' : Elem K), B.elems[j]? = some e → B'.elems[j]? = some e' → e'.flip = e.flip ∧ e'.compatible = e.compatible := by
  unfold ActionSet.setAlignment at hB ⊢
  obtain ⟨hl, hB⟩ := pyAssert_bind_ok.mp hB
  have hl' : pyAssert (decide ((coefsInUnits u w).length = A'.names.length)) = .ok () := by
    rw [h.names, pyAssert_ok_iff]; simpa [coefsInUnits] using hl
  rw [hl']
  refine ⟨_, rfl, ?_⟩
  rw [← Except.ok.inj hB]
  refine ⟨⟨h.pos, h.y, h.names, ?_, h.limits, ?_⟩, ?_⟩
  · simp [coefsInUnits, h.length]
  · intro j e e' he he'
    rw [List.getElem?_zipWith_eq_some] at he he'
    obtain ⟨e0, f, h0, -, rfl⟩ := he
    obtain ⟨e0', f', h0', -, rfl⟩ := he'
    exact h.feature j e0 e0' h0 h0'
  · intro j e e' he he'
    rw [List.getElem?_zipWith_eq_some] at he he'
    obtain ⟨e0, f, h0, hf, rfl⟩ := he
    obtain ⟨e0', f', h0', hf', rfl⟩ := he'
    rw [List.getElem?_map, Option.map_eq_some_iff] at hf hf'
    obtain ⟨c, hc, rfl⟩ := hf
    obtain ⟨c', hc', rfl⟩ := hf'
    unfold coefsInUnits at hc'
    rw [List.getElem?_mapIdx, hc] at hc'
    obtain rfl : c / u j = c' := Option.some.inj hc'
    have hs : sgn (c / u j) = sgn c := by
      have hu := h.pos j
      unfold sgn
      have hn : c / u j < 0 ↔ c < 0 := by rw [div_lt_iff₀ hu, zero_mul]
      simp only [div_pos_iff_of_pos_right hu, hn]
    obtain ⟨ha, hd, -⟩ := h.feature j e0 e0' h0 h0'
    rw [hs, h.y]
    refine ⟨rfl, ?_⟩
    unfold Elem.compatible Elem.setFlip
    dsimp only
    rw [ha, hd]

/-! ## Costs -/

/-- The features have the same percentile scores in both units. -/
def SamePercentiles (ext : Ext K) (u z : ℕ → K) (A A' : ActionSet K) : Prop :=
  ∀ (j : ℕ) (e e' : Elem K), A.elems[j]? = some e → A'.elems[j]? = some e' →
    ∀ v, e'.percentile ext (u j * v + z j) = e.percentile ext v

theorem actionCosts_inUnits {u z : ℕ → K} {A A' : ActionSet K} (h : InUnits u z A A') (hp : SamePercentiles ext u z A A')
    (ct : CostType) (x a cs : List K) : ActionCosts ext ct A' (inUnits u z x) (changeInUnits u a) cs ↔
      ActionCosts ext ct A x a cs := by
  have hm : ∀ {j e e'}, A.elems[j]? = some e → A'.elems[j]? = some e' → ∀ xj aj c : K,
      (MoveCost ext ct e' (u j * xj + z j) (u j * xj + z j + u j * aj) c ↔ MoveCost ext ct e xj (xj + aj) c) := by
    intro j e e' he he' xj aj c
    unfold MoveCost
    rw [show u j * xj + z j + u j * aj = u j * (xj + aj) + z j by ring]
    simp only [hp j e e' he he']
  have h0 : ∀ j (c : K), u j * c = 0 ↔ c = 0 := fun j c => by
    rw [mul_eq_zero]; exact ⟨fun h' => h'.resolve_left (h.pos j).ne', Or.inr⟩
  unfold ActionCosts
  have hlen : (inUnits u z x).length = x.length := by simp [inUnits]
  rw [hlen]
  refine and_congr_right fun _ => ?_
  constructor
  · intro g j e xj aj c he hxj haj hc
    obtain ⟨e', he'⟩ : ∃ e', A'.elems[j]? = some e' := by
      have : j < A'.elems.length := by
        rw [h.length]; exact (List.getElem?_eq_some_iff.mp he).1
      exact ⟨_, List.getElem?_eq_getElem this⟩
    have := g j e' (u j * xj + z j) (u j * aj) c he' (by simp [inUnits, List.getElem?_mapIdx, hxj])
      (by simp [changeInUnits, List.getElem?_mapIdx, haj]) hc
    rw [Ne, h0, hm he he'] at this
    exact this
  · intro g j e' xj' aj' c he' hxj haj hc
    obtain ⟨e, he⟩ : ∃ e, A.elems[j]? = some e := by
      have : j < A.elems.length := by
        rw [← h.length]; exact (List.getElem?_eq_some_iff.mp he').1
      exact ⟨_, List.getElem?_eq_getElem this⟩
    unfold inUnits at hxj
    unfold changeInUnits at haj
    rw [List.getElem?_mapIdx, Option.map_eq_some_iff] at hxj haj
    obtain ⟨xj, hxj, rfl⟩ := hxj
    obtain ⟨aj, haj, rfl⟩ := haj
    rw [Ne, h0, hm he he']
    exact g j e xj aj c he hxj haj hc

/-- **C83**, costs (partial): if moreover the features have the same percentile scores in both units, total and local
costs are the same. -/
theorem C83_costs_partial {u z : ℕ → K} (hso : SetOrderOk ext) (hlog : LogOk ext) (hb : b.Reachable ext)
    (hd : d.Reachable ext) (hu : InUnits u z b.aset d.aset) (hp : SamePercentiles ext u z b.aset d.aset)
    (hw : d.coefs = coefsInUnits u b.coefs) (ht : d.intercept = interceptInUnits u z b.coefs b.intercept)
    (hm : d.maxItems = b.maxItems) (hct : d.costType = b.costType) (hmax : b.costType ≠ .max)
    (hreg : Regular ext b x) (hreg' : Regular ext d (inUnits u z x)) (hden : Denied b x)
    (ho : o.Exact) (ho' : o'.Exact) (hx : b.setX ext x = (b1, .ok ()))
    (hx' : d.setX ext (inUnits u z x) = (d1, .ok ())) (hr : b1.Refitted o b2) (hr' : d1.Refitted o' d2)
    (hf : b2.fit o = .ok (b3, i)) (hf' : d2.fit o' = .ok (d3, i')) (hi : i.feasible = true) : i'.cost = i.cost := by
  have hi' : i'.feasible = true := by
    rw [C83_feasible_partial hso hlog hb hd hu hw ht hm hreg hreg' hden ho ho' hx hx' hr hr' hf hf', hi]
  have hlx : x.length = b.coefs.length := by
    have h := setX_status (ext := ext) b x
    rw [hx] at h
    by_contra hne
    rw [if_pos hne] at h
    cases h
  have hden' : Denied d (inUnits u z x) := by
    unfold Denied at hden ⊢
    rw [hw, ht, dot_inUnits hu.pos hlx, hu.y]
    exact hden
  obtain ⟨c, a, cs, h1, -, -, h2, h3, h4, h5⟩ := C26_sum_minimal hso hlog ho hb hreg hden hmax hx hr hf hi
  obtain ⟨c', a', cs', g1, -, -, g2, g3, g4, g5⟩ := C26_sum_minimal hso hlog ho' hd hreg' hden'
    (by rw [hct]; exact hmax) hx' hr' hf' hi'
  rw [hw, ht, hm] at g2
  simp only [hw, ht, hm, hct] at g3 g5
  rw [h1, g1]
  congr 1
  refine le_antisymm ?_ ?_
  · rw [h4]
    exact g5 _ cs ((C83_recourse hu hlx).mpr h2) ((actionCosts_inUnits hu hp _ x a cs).mpr h3)
  · rw [g4]
    rw [← changeInUnits_surj hu.pos a'] at g2 g3
    exact h5 _ cs' ((C83_recourse hu hlx).mp g2) ((actionCosts_inUnits hu hp _ x _ cs').mp g3)

/-- What is assumed of the density estimate: it follows the data into other units.  Kernel densities do so for shifts (`u = 1`);
for other factors they are divided by the factor, and costs change (`C83_scale_costs_refuted`). -/
def KdeConverts (ext : Ext K) (u z : K) : Prop := ∀ values : List K,
  (∀ e, ext.kde values = .error e → ext.kde (values.map fun v => u * v + z) = .error e) ∧
  ∀ f, ext.kde values = .ok f → ∃ f', ext.kde (values.map fun v => u * v + z) = .ok f' ∧ ∀ v, f' (u * v + z) = f v

theorem interpSeg_conv {u : K} (hu : 0 < u) (z : K) : ∀ (xs ys : List K) (v : K),
    interpSeg (xs.map (conv u z)) ys (conv u z v) = interpSeg xs ys v
  | [], ys, v => by cases ys <;> simp [interpSeg]
  | [g], ys, v => by cases ys <;> simp [interpSeg]
  | g0 :: g1 :: gs, [], v => by simp [interpSeg]
  | g0 :: g1 :: gs, [y], v => by simp [interpSeg]
  | g0 :: g1 :: gs, y0 :: y1 :: ys, v => by
    have ih := interpSeg_conv hu z (g1 :: gs) (y1 :: ys) v
    rw [List.map_cons] at ih
    rw [List.map_cons, List.map_cons, interpSeg, interpSeg, ih]
    simp only [conv_le hu]
    have h : (y1 - y0) / (conv u z g1 - conv u z g0) * (conv u z v - conv u z g0) = (y1 - y0) / (g1 - g0) * (v - g0) := by
      rw [show conv u z g1 - conv u z g0 = u * (g1 - g0) by unfold conv; ring,
        show conv u z v - conv u z g0 = u * (v - g0) by unfold conv; ring, div_mul_eq_mul_div, div_mul_eq_mul_div,
        show (y1 - y0) * (u * (v - g0)) = u * ((y1 - y0) * (v - g0)) by ring, mul_div_mul_left _ _ hu.ne']
    rw [h]

theorem percentile_conv {u z : K} (hu : 0 < u) (hk : KdeConverts ext u z) {e : Elem K} (hc : e.cache = none)
    (hg : e.grid.vals ≠ []) (v : K) : (e.inUnits u z).percentile ext (conv u z v) = e.percentile ext v := by
  unfold Elem.percentile Elem.table
  have hc' : (e.inUnits u z).cache = none := hc
  rw [hc, hc']
  dsimp only
  unfold Elem.freshTable Elem.newTable
  have hv : (e.inUnits u z).values = e.values.map (conv u z) := rfl
  have hgr : (e.inUnits u z).grid.vals = e.grid.vals.map (conv u z) := rfl
  rw [hv, hgr]
  obtain ⟨h1, h2⟩ := hk e.values
  dsimp only [bind, Except.bind]
  cases pyAssert (decide ((0 : K) ≤ pbuf ∧ (pbuf : K) < 1)) with
  | error err => rfl
  | ok _ =>
    dsimp only
    cases pyAssert (decide ((pbuf : K) + pbuf < 1)) with
    | error err => rfl
    | ok _ =>
      dsimp only
      cases hf : ext.kde e.values with
      | error err => rw [h1 err hf]
      | ok f =>
        obtain ⟨f', hf', hff⟩ := h2 f hf
        rw [hf']
        dsimp only
        have hmap : (e.grid.vals.map (conv u z)).map f' = e.grid.vals.map f := by
          rw [List.map_map]
          exact List.map_congr_left fun a _ => hff a
        rw [hmap]
        obtain ⟨g, gs, hgs⟩ := List.exists_cons_of_ne_nil hg
        have heval : ∀ (ys : List K) (lo hi : K), Table.eval ⟨e.grid.vals.map (conv u z), ys, lo, hi⟩ (conv u z v) =
            Table.eval ⟨e.grid.vals, ys, lo, hi⟩ v := by
          intro ys lo hi
          unfold Table.eval
          dsimp only
          rw [interpSeg_conv hu]
          have hh : (e.grid.vals.map (conv u z)).headD 0 = conv u z (e.grid.vals.headD 0) := by rw [hgs]; rfl
          have hl : (e.grid.vals.map (conv u z)).getLastD 0 = conv u z (e.grid.vals.getLastD 0) := by
            rw [List.getLastD_eq_getLast?, List.getLastD_eq_getLast?, List.getLast?_map, hgs, List.getLast?_cons]
            rfl
          rw [hh, hl]
          have hlt : ∀ a b : K, conv u z a < conv u z b ↔ a < b := fun a b => by
            rw [← not_le, ← not_le, conv_le hu]
          simp only [hlt]
        rw [heval]

theorem mkActionSet_elem {X : List (List K)} {names : List String} {y : Int} {custom : List (String × PyVal K)}
    {dflt st : PyVal K} {A : ActionSet K} (hA : mkActionSet X names y custom dflt st = .ok A) {j : ℕ} {e : Elem K}
    (he : A.elems[j]? = some e) : e.cache = none ∧ e.grid.vals ≠ [] := by
  have h := (mkActionSet_spec hA).2.2.2.1
  obtain ⟨p, -, hp⟩ := mapM_ok_mem h (List.mem_of_getElem? he)
  unfold mkColumn at hp
  dsimp only at hp
  have key : ∀ {n v b vt act ty sd ss}, mkElem n v b vt act ty sd ss = .ok e → e.cache = none ∧ e.grid.vals ≠ [] := by
    intro n v b vt act ty sd ss h
    obtain ⟨-, ⟨-, k, hg, -⟩, -, -, -, -, -, -, -, hc⟩ := mkElem_spec h
    refine ⟨hc, ?_⟩
    rw [hg]
    simp
  cases hd : determineType (column X p.2) <;> rw [hd] at hp <;> exact key hp

/-- **C83**, percentiles: if the density estimate follows the data (as kernel densities do when only the zeros of
columns are moved), the set made from the converted data has the same percentile scores; with
`C83_costs_partial`, the same costs. -/
theorem C83_percentiles {X : List (List K)} {u z : ℕ → K} (hu : ∀ j, 0 < u j) (hk : ∀ j, KdeConverts ext (u j) (z j))
    {names : List String} {y : Int} {custom custom' : List (String × PyVal K)} {dflt : PyVal K}
    (hc : ∀ (j : ℕ) (n : String), names[j]? = some n → ColumnInUnits X u z custom custom' dflt j n)
    {A : ActionSet K} (hA : mkActionSet X names y custom dflt (.str "relative") = .ok A) :
    ∃ A', mkActionSet (X.map (inUnits u z)) names y custom' dflt (.str "relative") = .ok A' ∧
      InUnits u z A A' ∧ SamePercentiles ext u z A A' := by
  obtain ⟨A', hA', hu'⟩ := (C83_new hu hc (y := y)).1 A hA
  refine ⟨A', hA', hu', ?_⟩
  rw [mkActionSet_inUnits hu hc, hA] at hA'
  rw [← Except.ok.inj hA']
  intro j e e' he he' v
  unfold ActionSet.inUnits at he'
  rw [List.getElem?_mapIdx, he] at he'
  rw [← Option.some.inj he']
  exact percentile_conv (hu j) (hk j) (mkActionSet_elem hA he).1 (mkActionSet_elem hA he).2 v

end Recourse
