import Verif.Props.Ends
import Verif.Props.Subset

/-!
# C92: one-hot encodings
-/

set_option linter.unusedSectionVars false

namespace Recourse

variable {K : Type} [Field K] [LinearOrder K] [IsStrictOrderedRing K] [FloorRing K]

/-- The indicator vector of category `c` among `k` categories. -/
def unitVec (k c : ℕ) : List K := (List.range k).map fun j => if j = c then 1 else 0

section
variable {ext : Ext K} {o : Oracle K} {b0 b1 b b' : Builder K} {x : List K} {i : Info K}

/-- **C92**, groups of indicators.  Suppose the features listed in a subset limit take only the values 0 and 1 (on their grids
and at the point), and the limits apply (see C35).  Then after every feasible result each of them is 0 or 1 and the
number of ones lies between the bounds. -/
theorem C92_group (hso : SetOrderOk ext) (ho : o.Sound) (hr : b0.Reachable ext)
    (hx : b0.setX ext x = (b1, .ok ())) (ha : b1.After o b) (hf : b.fit o = .ok (b', i))
    (hi : i.feasible = true) (hla : LimitsApply b0.aset x) {k : SubsetLimit} (hk : k ∈ b0.aset.cons.items)
    (hg : ∀ (j : ℕ) (n : String) (e : Elem K), b0.aset.names[j]? = some n → n ∈ k.names → b0.aset.elems[j]? = some e →
      ∀ v ∈ e.grid.vals, v = 0 ∨ v = 1)
    (hx01 : ∀ n ∈ k.names, x.getD (b0.aset.names.idxOf n) 0 = 0 ∨ x.getD (b0.aset.names.idxOf n) 0 = 1) :
    ∃ a, i.actions = some a ∧
      (∀ n ∈ k.names, (vadd x a).getD (b0.aset.names.idxOf n) 0 = 0 ∨ (vadd x a).getD (b0.aset.names.idxOf n) 0 = 1) ∧
      k.lb ≤ (k.names.countP fun n => decide ((vadd x a).getD (b0.aset.names.idxOf n) 0 = 1) : ℕ) ∧
      ((k.names.countP fun n => decide ((vadd x a).getD (b0.aset.names.idxOf n) 0 = 1) : ℕ) : Int) ≤ k.ub := by
  obtain ⟨a, h1, h2⟩ := C35_subset_partial hso ho hr hx ha hf hi hla
  obtain ⟨a', h1', hrec⟩ := C22_actionable hso ho hr hx ha hf hi
  rw [h1] at h1'; cases h1'
  have h01 : ∀ n ∈ k.names, (vadd x a).getD (b0.aset.names.idxOf n) 0 = 0 ∨
      (vadd x a).getD (b0.aset.names.idxOf n) 0 = 1 := by
    intro n hn
    have hwf := hr.ok.aset.wf
    have hnm : n ∈ b0.aset.names := (hwf.cons k hk).known n hn
    have hj : b0.aset.names.idxOf n < b0.aset.names.length := List.idxOf_lt_length_of_mem hnm
    obtain ⟨-, -, hxl, -⟩ := setX_ok hx
    rw [hr.ok.coefs] at hxl
    obtain ⟨e, he⟩ : ∃ e, b0.aset.elems[b0.aset.names.idxOf n]? = some e :=
      ⟨_, List.getElem?_eq_getElem (by rw [hwf.length]; exact hj)⟩
    obtain ⟨xj, hxj⟩ : ∃ xj, x[b0.aset.names.idxOf n]? = some xj :=
      ⟨_, List.getElem?_eq_getElem (by rw [hxl]; exact hj)⟩
    obtain ⟨aj, haj⟩ : ∃ aj, a[b0.aset.names.idxOf n]? = some aj :=
      ⟨_, List.getElem?_eq_getElem (by rw [hrec.permitted.1, hxl]; exact hj)⟩
    have hv : (vadd x a).getD (b0.aset.names.idxOf n) 0 = xj + aj := by
      unfold vadd
      rw [List.getD_eq_getElem?_getD, List.getElem?_zipWith, hxj, haj]; rfl
    have hx0 := hx01 n hn
    rw [List.getD_eq_getElem?_getD, hxj, Option.getD_some] at hx0
    rw [hv]
    rcases hrec.permitted.2 _ e xj aj he hxj haj with h | ⟨-, h, -⟩
    · rw [h]; exact hx0
    · exact hg _ n e (List.getElem?_idxOf hnm) hn he _ h
  refine ⟨a, h1, h01, ?_⟩
  have hc : (k.names.countP fun n => decide ((vadd x a).getD (b0.aset.names.idxOf n) 0 = 1)) =
      numNonzero b0.aset x a k.names := by
    unfold numNonzero
    refine List.countP_congr fun n hn => ?_
    rw [decide_eq_true_iff, decide_eq_true_iff]
    rcases h01 n hn with h | h <;> rw [h] <;> simp
  rw [hc]
  exact h2 k hk

end

/-! ## New sets with one group -/

section
variable {ext : Ext K} {X : List (List K)} {names g : List String} {y lb ub : Int} {custom : List (String × PyVal K)}
  {dflt st : PyVal K} {A A1 A2 : ActionSet K} {id : Option String} {cid : String} {be : Backend} {ct : CostType}
  {w : List K} {t : K} {b b1 b2 b3 : Builder K} {x : List K} {o : Oracle K} {i : Info K}

/-- The builder made for a new set after one call of `add_constraint`, and perhaps `set_alignment`. -/
theorem group_elem (hA : mkActionSet X names y custom dflt st = .ok A) (hc : A.addConstraint g lb ub id = .ok (A1, cid))
    (hal : A2 = A1 ∨ A1.setAlignment w = .ok A2) (hb : mkBuilder be ct A2 w t = .ok b) :
    b.Reachable ext ∧ b.aset.names = names ∧ b.aset.yDesired = A.yDesired ∧ w.length = names.length ∧
    b.maxItems = names.length ∧ numActionable b.aset ≤ b.maxItems ∧
    (∃ k, b.aset.cons.items = [k] ∧ k.names.Perm g ∧ k.lb = lb ∧ k.ub = ub) ∧
    ∀ (j : ℕ) (e : Elem K), b.aset.elems[j]? = some e → ∃ e0 wj, A.elems[j]? = some e0 ∧ w[j]? = some wj ∧
      e = { e0 with flip := some (A.yDesired * sgn wj) } ∧ e0.cache = none ∧ e0.actionable = true ∧ e0.stepDir = 0 := by
  obtain ⟨-, -, -, -, -, hn, hlen, hcons, hy, hak, hel⟩ := C17_construction hA
  unfold ActionSet.addConstraint at hc
  obtain ⟨⟨c, i'⟩, hadd, hc⟩ := bind_ok_iff.mp hc
  cases hc
  have hAr : ({ A with cons := c } : ActionSet K).Reachable ext := .addC (.mk hA) (id := id) (i := cid) (lb := lb) (ub := ub) (names := g) (by
    unfold ActionSet.addConstraint; rw [hadd]; rfl)
  have hak1 : ({ A with cons := c } : ActionSet K).alignmentKnown = false := hak
  have h2 : ({ A with cons := c } : ActionSet K).setAlignment w = .ok b.aset := by
    obtain ⟨h1, -⟩ := mkBuilder_parts hb
    rcases hal with rfl | hal
    · rw [hak1, if_neg (by simp)] at h1; exact h1
    · rw [setAlignment_known hal, if_pos rfl] at h1
      cases h1; exact hal
  have hA2 : A2.Reachable ext := by
    rcases hal with rfl | hal
    · exact hAr
    · exact .align hAr hal
  have hr : b.Reachable ext := .mk hA2 hb
  obtain ⟨hw, hA'⟩ := setAlignment_ok h2
  dsimp only at hw hA'
  have hel' : ∀ (j : ℕ) (e : Elem K), b.aset.elems[j]? = some e → ∃ e0 wj, A.elems[j]? = some e0 ∧ w[j]? = some wj ∧
      e = { e0 with flip := some (A.yDesired * sgn wj) } ∧ e0.cache = none ∧ e0.actionable = true ∧ e0.stepDir = 0 := by
    intro j e he
    rw [hA'] at he
    dsimp only at he
    obtain ⟨e0, f, he0, hf, rfl⟩ := List.getElem?_zipWith_eq_some.mp he
    rw [List.getElem?_map] at hf
    obtain ⟨wj, hwj, rfl⟩ := Option.map_eq_some_iff.mp hf
    obtain ⟨-, -, -, -, hact, hdir, -⟩ := hel j e0 he0
    refine ⟨e0, wj, he0, hwj, ?_, ?_, hact, hdir⟩
    · unfold Elem.setFlip
      congr 2
      rcases hy with hy | hy <;> rw [hy]
      · rw [if_pos (by norm_num), one_mul]; unfold sgn; split_ifs <;> rfl
      · rw [if_neg (by norm_num)]; unfold sgn; split_ifs <;> rfl
    · obtain ⟨-, -, -, hm, -⟩ := mkActionSet_spec hA
      obtain ⟨p, -, hp⟩ := mapM_ok_mem hm (List.mem_of_getElem? he0)
      obtain ⟨_, _, _, _, hp⟩ := mkColumn_spec hp
      exact (mkElem_spec hp).2.2.2.2.2.2.2.2.2
  have hbn : b.aset.names = names := by rw [hA']; exact hn
  have hbl : b.aset.elems.length = names.length := by rw [hr.ok.aset.wf.length, hbn]
  have hna : numActionable b.aset = names.length := by
    unfold numActionable
    rw [← hbl, List.countP_eq_length]
    intro e he
    obtain ⟨j, hj⟩ := List.mem_iff_getElem?.mp he
    obtain ⟨e0, wj, -, -, rfl, -, hact, -⟩ := hel' j e hj
    exact hact
  obtain ⟨hoff, -, -, -, -, -, hmax⟩ := mkBuilder_offers (ext := ext) hA2 hb
  have hmax' : b.maxItems = names.length := by rw [hmax, ← hoff.numActionable, hna]
  refine ⟨hr, hbn, by rw [hA'], hw.trans (by rw [hn]), hmax', by rw [hna, hmax'], ?_, hel'⟩
  obtain ⟨-, -, -, -, -, -, -, -, -, -, k, hk, hklb, hkub, hkn, -, hit⟩ := add_ok hadd
  refine ⟨k, ?_, ?_, hklb, hkub⟩
  · rw [hA']; dsimp only
    rw [hit, hcons]; rfl
  · rw [hkn]
    have := (sortByIndex_perm (g.map fun s => (A.cons.names.idxOf s, s))).map (·.2)
    simpa [List.map_map, Function.comp_def] using this

/-- The group `g` takes the first columns, which contain only zeros and ones; its coefficients are not 0; the
point has zeros and ones there. -/
structure LeadingGroup (X : List (List K)) (names g : List String) (w x : List K) : Prop where
  first : ∃ m, g.Perm (names.take m) ∧ ∀ j < m, j < names.length →
    (∀ r ∈ X, r[j]? = some 0 ∨ r[j]? = some 1) ∧ (x[j]? = some 0 ∨ x[j]? = some 1) ∧ ∃ c, w[j]? = some c ∧ c ≠ 0

theorem compat_aligned {e0 : Elem K} {c : K} (hy : A.yDesired = 1 ∨ A.yDesired = -1) (hact : e0.actionable = true)
    (hdir : e0.stepDir = 0) :
    Elem.compatible { e0 with flip := some (A.yDesired * sgn c) } ≠ some false ↔ c ≠ 0 := by
  unfold Elem.compatible
  dsimp only
  rw [hact, hdir]
  have h0 : A.yDesired * sgn c = 0 ↔ c = 0 := by
    rw [mul_eq_zero, sgn_eq_zero, or_iff_right]
    rcases hy with h | h <;> rw [h] <;> simp
  simp [h0]

theorem bool_grid (hA : mkActionSet X names y [] dflt st = .ok A) {j : ℕ} {e : Elem K} (he : A.elems[j]? = some e)
    (hX : ∀ r ∈ X, r[j]? = some 0 ∨ r[j]? = some 1) : e.grid.vals = [0, 1] ∧ e.grid.isInt = false := by
  obtain ⟨-, -, -, -, hlen, -, -, -, -, -, hel⟩ := C17_construction hA
  obtain ⟨hn, -, hvt, -, -, -, hg⟩ := hel j e he
  refine ⟨hg hX rfl, ?_⟩
  have hb : determineType (X.map fun r => r.getD j 0) = .bool := by
    rw [determineType_bool]
    intro u hu
    obtain ⟨r, hr, rfl⟩ := List.mem_map.mp hu
    rw [List.getD_eq_getElem?_getD]
    rcases hX r hr with h | h <;> rw [h] <;> simp
  obtain ⟨-, -, -, hm, -⟩ := mkActionSet_spec hA
  obtain ⟨p, -, hp⟩ := mapM_ok_mem hm (List.mem_of_getElem? he)
  obtain ⟨_, _, _, _, hp⟩ := mkColumn_spec hp
  have := (mkElem_spec hp).2.2.1
  rw [hvt, hb] at this
  cases hi : e.grid.isInt with
  | false => rfl
  | true => exact absurd (this.mp hi) (by simp)

/-- **C92**: limits on a group of indicators that takes the first columns always apply. -/
theorem C92_applies (hA : mkActionSet X names y [] dflt st = .ok A) (hc : A.addConstraint g lb ub id = .ok (A1, cid))
    (hal : A2 = A1 ∨ A1.setAlignment w = .ok A2) (hb : mkBuilder be ct A2 w t = .ok b)
    (hg : LeadingGroup X names g w x) : LimitsApply b.aset x := by
  obtain ⟨-, hn, -, hwl, -, -, ⟨k, hk, hkp, -, -⟩, hel⟩ := group_elem (ext := ⟨fun r => r, fun _ => .error .value, fun l => l⟩) hA hc hal hb
  obtain ⟨-, hnd, -, -, -, -, -, -, hy, -⟩ := C17_construction hA
  obtain ⟨m, hgm, hm⟩ := hg.first
  have hlist : ∀ (j : ℕ) (n : String), b.aset.names[j]? = some n → (Listed b.aset n ↔ j < m) := by
    intro j n hj
    rw [hn] at hj
    unfold Listed
    rw [hk]
    simp only [List.mem_singleton, exists_eq_left]
    rw [hkp.mem_iff, hgm.mem_iff]
    constructor
    · intro h
      obtain ⟨j', hj'⟩ := List.mem_iff_getElem?.mp h
      rw [List.getElem?_take] at hj'
      split at hj'
      · rename_i hlt
        have : j' = j := (List.nodup_iff_getElem?_ne_getElem?.mp hnd |> fun H => by
          by_contra hne
          rcases lt_or_gt_of_ne hne with h1 | h1
          · exact H j' j h1 (List.getElem?_eq_some_iff.mp hj).1 (hj'.trans hj.symm)
          · exact H j j' h1 (List.getElem?_eq_some_iff.mp hj').1 (hj.trans hj'.symm))
        omega
      · cases hj'
    · intro h
      refine List.mem_of_getElem? (i := j) ?_
      rw [List.getElem?_take, if_pos h]; exact hj
  intro l n hl hL
  have hlm := (hlist l n hl).mp hL
  have hll : l < names.length := by rw [← hn]; exact (List.getElem?_eq_some_iff.mp hl).1
  refine ⟨?_, ?_⟩
  · intro xl hxl
    rcases (hm l hlm hll).2.1 with h | h
    · rw [h] at hxl; cases hxl; exact le_refl _
    · rw [h] at hxl; cases hxl; exact zero_le_one
  · intro j hj n' e xj hn' he hxj
    have hjn : j < names.length := by omega
    obtain ⟨e0, c, he0, hc', rfl, -, hact, hdir⟩ := hel j e he
    obtain ⟨hX, hx01, c'', hc'', hc0⟩ := hm j (by omega) hjn
    rw [hc'] at hc''; cases hc''
    obtain ⟨hgr, hint⟩ := bool_grid hA he0 hX
    refine ⟨(compat_aligned hy hact hdir).mpr hc0, ?_, ?_⟩
    · unfold FitsGrid; dsimp only; rw [hint]; simp
    · have hd : ∀ v : K, DirOk e0.stepDir xj v := by
        intro v; rw [hdir]; exact ⟨fun h => absurd h (by simp), fun h => absurd h (by simp)⟩
      have hlj : Listed b.aset n' := (hlist j n' hn').mpr (by omega)
      rcases hx01 with h | h
      · rw [h] at hxj; cases hxj
        exact ⟨1, one_ne_zero, Or.inr ⟨hact, by rw [hgr]; simp, hd 1⟩, fun hnl => absurd hlj hnl⟩
      · rw [h] at hxj; cases hxj
        exact ⟨0, zero_ne_one, Or.inr ⟨hact, by rw [hgr]; simp, hd 0⟩, fun hnl => absurd hlj hnl⟩

/-- A new builder with a leading group is regular at points within the grids. -/
theorem group_regular (hA : mkActionSet X names y [] dflt st = .ok A) (hc : A.addConstraint g lb ub id = .ok (A1, cid))
    (hal : A2 = A1 ∨ A1.setAlignment w = .ok A2) (hb : mkBuilder be ct A2 w t = .ok b)
    (hg : LeadingGroup X names g w x) (hk : PositiveDensity ext) (hx : WithinGrids A x) : Regular ext b x := by
  obtain ⟨hr, hn, hy, hwl, -, -, -, hel⟩ := group_elem (ext := ext) hA hc hal hb
  obtain ⟨-, hcf, -, -, -, hmin, -⟩ := mkBuilder_parts hb
  refine regular_of_range hr.ok hk (C92_applies hA hc hal hb hg) ?_ ?_ ?_
  · intro j e wj he hwj
    obtain ⟨e0, wj', -, hwj', rfl, -⟩ := hel j e he
    rw [hcf, hwj'] at hwj; cases hwj
    rw [hy]
  · rw [hmin]; omega
  · intro j e xj he hxj ha
    obtain ⟨e0, wj', he0, hwj', rfl, hc, -, -⟩ := hel j e he
    refine ⟨?_, hx j e0 xj he0 hxj⟩
    unfold Elem.table
    dsimp only
    rw [hc]

/-- **C92**, acceptance.  A new builder whose only subset limit is on a group of indicators in the first columns accepts
a point within the grids exactly if it has the right length and densities can be estimated for the features used by the
classifier. -/
theorem C92_accepts (hso : SetOrderOk ext) (hlog : LogIncreasing ext)
    (hA : mkActionSet X names y [] dflt st = .ok A) (hc : A.addConstraint g lb ub id = .ok (A1, cid))
    (hal : A2 = A1 ∨ A1.setAlignment w = .ok A2) (hb : mkBuilder be ct A2 w t = .ok b)
    (hg : LeadingGroup X names g w x) (hk : PositiveDensity ext) (hw : ∀ c ∈ w, c = 0 ∨ 1 / 10 ^ 8 < |c|)
    (hx : WithinGrids A x) :
    (b.setX ext x).2 = .ok () ↔ x.length = names.length ∧ Estimable ext A w := by
  obtain ⟨hr, hn, -, hwl, -, -, ⟨k, hki, hkp, -, -⟩, hel⟩ := group_elem (ext := ext) hA hc hal hb
  have hla := C92_applies hA hc hal hb hg
  rw [C88_accepts hso hlog hr (group_regular hA hc hal hb hg hk hx)]
  obtain ⟨-, hnd, -, -, -, -, -, -, hy, -⟩ := C17_construction hA
  obtain ⟨-, hcf, -⟩ := mkBuilder_parts hb
  have hlen : b.aset.elems.length = names.length := by rw [hr.ok.aset.wf.length, hn]
  obtain ⟨m, hgm, hm⟩ := hg.first
  have hlist : ∀ (j : ℕ) (n : String), b.aset.names[j]? = some n → Listed b.aset n → j < m := by
    intro j n hj hL
    rw [hn] at hj
    obtain ⟨k', hk', hL⟩ := hL
    rw [hki, List.mem_singleton] at hk'
    rw [hk', hkp.mem_iff, hgm.mem_iff] at hL
    obtain ⟨j', hj'⟩ := List.mem_iff_getElem?.mp hL
    rw [List.getElem?_take] at hj'
    split at hj'
    · rename_i hlt
      have : j' = j := (List.getElem?_inj (List.getElem?_eq_some_iff.mp hj').1 hnd).mp (hj'.trans hj.symm)
      omega
    · cases hj'
  constructor
  · intro h
    refine ⟨by rw [h.length, hcf, hwl], ?_⟩
    intro j e0 c he0 hc hc0
    have hj : j < names.length := by rw [← hwl]; exact (List.getElem?_eq_some_iff.mp hc).1
    obtain ⟨e, he⟩ : ∃ e, b.aset.elems[j]? = some e := ⟨_, List.getElem?_eq_getElem (by rw [hlen]; exact hj)⟩
    obtain ⟨e0', c', he0', hc', rfl, hcache, hact, hdir⟩ := hel j e he
    rw [he0] at he0'; rw [hc] at hc'; cases he0'; cases hc'
    obtain ⟨v, p, hp⟩ := h.scores j _ he ((compat_aligned hy hact hdir).mpr hc0)
    unfold Elem.percentile at hp
    obtain ⟨tb, htb, -⟩ := bind_ok_iff.mp hp
    unfold Elem.table at htb
    dsimp only at htb
    rw [hcache] at htb
    unfold Elem.freshTable Elem.newTable at htb
    simp only [bind_ok_iff] at htb
    obtain ⟨-, -, -, -, -, -, pdf, hpdf, -⟩ := htb
    exact ⟨pdf, hpdf⟩
  · rintro ⟨hxl, hest⟩
    have h01 : ∀ (j : ℕ) (n : String) (e : Elem K) (xj : K), b.aset.names[j]? = some n → b.aset.elems[j]? = some e →
        x[j]? = some xj → Listed b.aset n → (xj = 0 ∨ xj = 1) ∧ e.grid.vals = [0, 1] ∧ e.actionable = true ∧ e.stepDir = 0 := by
      intro j n e xj hj he hxj hL
      obtain ⟨e0, wj, he0, hwj, rfl, -, hact, hdir⟩ := hel j e he
      have hjn : j < names.length := by rw [← hlen]; exact (List.getElem?_eq_some_iff.mp he).1
      obtain ⟨hX, hx01, -⟩ := hm j (hlist j n hj hL) hjn
      refine ⟨?_, (bool_grid hA he0 hX).1, hact, hdir⟩
      rcases hx01 with h | h <;> rw [h] at hxj <;> cases hxj <;> simp
    refine ⟨by rw [hcf, hxl, hwl], ?_, ?_, ?_, ?_, ?_⟩
    · intro j e he hcmp
      obtain ⟨e0, wj, he0, hwj, rfl, hc, hact, hdir⟩ := hel j e he
      obtain ⟨pdf, hpdf⟩ := hest j e0 wj he0 hwj ((compat_aligned hy hact hdir).mp hcmp)
      have ht : ∃ t, Elem.table ext { e0 with flip := some (A.yDesired * sgn wj) } = .ok t := by
        unfold Elem.table
        dsimp only
        rw [hc]
        exact freshTable_of_kde hpdf
      obtain ⟨t, ht⟩ := ht
      exact ⟨0, t.eval 0, by unfold Elem.percentile; rw [ht]; rfl⟩
    · intro j c hc hu
      rw [hcf] at hc
      have hj : j < names.length := by rw [← hwl]; exact (List.getElem?_eq_some_iff.mp hc).1
      obtain ⟨e, he⟩ : ∃ e, b.aset.elems[j]? = some e := ⟨_, List.getElem?_eq_getElem (by rw [hlen]; exact hj)⟩
      obtain ⟨xj, hxj⟩ : ∃ xj, x[j]? = some xj := ⟨_, List.getElem?_eq_getElem (by rw [hxl]; exact hj)⟩
      have h1 := (hu _ e xj (by rw [hn]; exact List.getElem?_eq_getElem hj) he hxj).1
      obtain ⟨e0, c', -, hc', rfl, -, hact, hdir⟩ := hel j e he
      rw [hc] at hc'; cases hc'
      exact (hw c (List.mem_of_getElem? hc)).resolve_left ((compat_aligned hy hact hdir).mp h1)
    · intro j n e xj hj he hxj hL
      obtain ⟨h1, h2, -, -⟩ := h01 j n e xj hj he hxj hL
      rcases h1 with rfl | rfl
      · left; rintro v (h | ⟨-, h, -⟩)
        · rw [h]
        · rw [h2] at h; simp only [List.mem_cons, List.not_mem_nil, or_false] at h
          rcases h with rfl | rfl <;> simp
      · right; rintro v (h | ⟨-, h, -⟩)
        · rw [h]
        · rw [h2] at h; simp only [List.mem_cons, List.not_mem_nil, or_false] at h
          rcases h with rfl | rfl <;> simp
    · intro j n e xj hj he hxj hL hpos
      obtain ⟨h1, h2, h3, h4⟩ := h01 j n e xj hj he hxj hL
      refine Or.inr ⟨h3, by rw [h2]; simp, ?_⟩
      rw [h4]; exact ⟨fun h => absurd h (by simp), fun h => absurd h (by simp)⟩
    · right
      have hkl := (hr.ok.aset.wf.cons k (by rw [hki]; simp))
      have hne : k.names ≠ [] := by
        intro h0; have := hkl.atLeastTwo; rw [h0] at this; simp at this
      obtain ⟨n, hnk⟩ := List.exists_mem_of_ne_nil _ hne
      obtain ⟨j, hj⟩ := List.mem_iff_getElem?.mp (hkl.known n hnk)
      refine ⟨j, by rw [hcf, hwl, ← hn]; exact (List.getElem?_eq_some_iff.mp hj).1, ?_⟩
      exact (hla j n hj ⟨k, by rw [hki]; simp, hnk⟩).2 j (le_refl _)

/-! ## All features form one group -/

theorem unitVec_zero (n : ℕ) : (unitVec (n + 1) 0 : List K) = 1 :: List.replicate n 0 := by
  unfold unitVec
  rw [List.range_succ_eq_map, List.map_cons, List.map_map, if_pos rfl]
  congr 1
  rw [List.eq_replicate_iff]
  refine ⟨by simp, ?_⟩
  intro v hv
  obtain ⟨j, -, rfl⟩ := List.mem_map.mp hv
  simp

theorem unitVec_succ (n c : ℕ) : (unitVec (n + 1) (c + 1) : List K) = 0 :: unitVec n c := by
  unfold unitVec
  rw [List.range_succ_eq_map, List.map_cons, List.map_map, if_neg (by omega)]
  congr 1
  refine List.map_congr_left fun j _ => ?_
  simp

theorem unitVec_length (n c : ℕ) : (unitVec n c : List K).length = n := by simp [unitVec]

theorem unitVec_zeroOne (n c : ℕ) : ZeroOne (unitVec n c : List K) := by
  intro v hv
  obtain ⟨j, -, rfl⟩ := List.mem_map.mp hv
  split <;> simp

theorem dot_replicate (w : List K) (n : ℕ) : dot w (List.replicate n 0) = 0 := by
  induction w generalizing n with
  | nil => cases n <;> simp [dot]
  | cons a w ih =>
    cases n with
    | zero => simp [dot]
    | succ n =>
      have := ih n
      unfold dot at this ⊢
      rw [List.replicate_succ, List.zipWith_cons_cons, List.sum_cons, this]; simp

theorem dot_unitVec : ∀ {w : List K} {c : ℕ}, c < w.length → dot w (unitVec w.length c) = w.getD c 0
  | [], c, h => absurd h (by simp)
  | a :: w, 0, _ => by
    rw [List.length_cons, unitVec_zero]
    have := dot_replicate w w.length
    unfold dot at this ⊢
    rw [List.zipWith_cons_cons, List.sum_cons, this]; simp
  | a :: w, c + 1, h => by
    rw [List.length_cons, unitVec_succ]
    have := dot_unitVec (w := w) (c := c) (by simpa using h)
    unfold dot at this ⊢
    rw [List.zipWith_cons_cons, List.sum_cons, this]; simp

theorem onehot_cases : ∀ {v : List K}, ZeroOne v → v.countP (fun u => decide (u ≠ 0)) ≤ 1 →
    (v = List.replicate v.length 0 ∧ v.countP (fun u => decide (u ≠ 0)) = 0) ∨
      ∃ c < v.length, v = unitVec v.length c ∧ v.countP (fun u => decide (u ≠ 0)) = 1
  | [], _, _ => Or.inl ⟨rfl, rfl⟩
  | a :: l, h, hc => by
    rw [List.countP_cons] at hc
    have hl : ZeroOne l := fun u hu => h u (List.mem_cons_of_mem _ hu)
    rcases h a (List.mem_cons_self ..) with rfl | rfl
    · have hc' : l.countP (fun u => decide (u ≠ 0)) ≤ 1 := by simpa using hc
      rcases onehot_cases hl hc' with ⟨h1, h2⟩ | ⟨c, hlt, h1, h2⟩
      · left
        rw [List.countP_cons, h2]
        refine ⟨?_, by simp⟩
        rw [List.length_cons, List.replicate_succ, ← h1]
      · right
        refine ⟨c + 1, by simpa using hlt, ?_, by rw [List.countP_cons, h2]; simp⟩
        rw [List.length_cons, unitVec_succ, ← h1]
    · have hc' : l.countP (fun u => decide (u ≠ 0)) = 0 := by simpa using hc
      right
      refine ⟨0, by simp, ?_, by rw [List.countP_cons, hc']; simp⟩
      rw [List.length_cons, unitVec_zero]
      congr 1
      rw [List.eq_replicate_iff]
      refine ⟨rfl, ?_⟩
      intro u hu
      have := List.countP_eq_zero.mp hc' u hu
      simpa using this

theorem countP_unitVec : ∀ {n c : ℕ}, c < n → (unitVec n c : List K).countP (fun u => decide (u ≠ 0)) = 1
  | 0, c, h => absurd h (by simp)
  | n + 1, 0, _ => by rw [unitVec_zero]; simp [List.countP_replicate]
  | n + 1, c + 1, h => by
    rw [unitVec_succ, List.countP_cons, countP_unitVec (by omega)]; simp

/-- Counting by name and counting by position. -/
theorem count_names {ns : List String} (hnd : ns.Nodup) {v : List K} (hl : v.length = ns.length) {l : List String}
    (hp : l.Perm ns) : (l.countP fun n => decide (v.getD (ns.idxOf n) 0 ≠ 0)) = v.countP fun u => decide (u ≠ 0) := by
  rw [hp.countP_eq]
  have hm : ns.map (fun n => v.getD (ns.idxOf n) 0) = v := by
    apply List.ext_getElem
    · simp [hl]
    · intro j h1 h2
      have hj : j < ns.length := by simpa using h1
      rw [List.getElem_map, hnd.idxOf_getElem, List.getD_eq_getElem _ _ h2]
  conv_rhs => rw [← hm]
  rw [List.countP_map]
  rfl

/-- All columns contain only zeros and ones, no coefficient is 0, and all features form the group. -/
theorem leading_all (hX : ∀ r ∈ X, ZeroOne r ∧ r.length = names.length) (hg : g.Perm names)
    (hwl : w.length = names.length) (hw : ∀ c ∈ w, c ≠ 0) (hx : ZeroOne x) (hxl : x.length = names.length) :
    LeadingGroup X names g w x := by
  refine ⟨names.length, by rw [List.take_length]; exact hg, ?_⟩
  intro j hj _
  refine ⟨?_, ?_, w[j], List.getElem?_eq_getElem _, hw _ (List.getElem_mem _)⟩
  · intro r hr
    obtain ⟨h1, h2⟩ := hX r hr
    rw [List.getElem?_eq_getElem (by rw [h2]; exact hj)]
    rcases h1 _ (List.getElem_mem (l := r) (n := j) (by rw [h2]; exact hj)) with h | h <;> rw [h] <;> simp
  · rw [List.getElem?_eq_getElem (by rw [hxl]; exact hj)]
    rcases hx _ (List.getElem_mem (l := x) (n := j) (by rw [hxl]; exact hj)) with h | h <;> rw [h] <;> simp

/-- **C92**, categories.  Let all features be the indicators of one category (columns of zeros and ones, no coefficient 0) with
the limit that at most one (`lb = 0`) or exactly one (`lb = 1`) of them is 1.  A person of some category `j` who is rejected is
accepted by the builder; with an exact solver `fit()` is feasible exactly if some category has an approved score (or, for `lb = 0`, having
no category has); and then the action moves the person to such a category. -/
theorem C92_categories (hso : SetOrderOk ext) (hlog : LogIncreasing ext) (ho : o.Exact)
    (hA : mkActionSet X names y [] dflt st = .ok A) (hX : ∀ r ∈ X, ZeroOne r)
    (hc : A.addConstraint g lb 1 id = .ok (A1, cid)) (hg : g.Perm names)
    (hal : A2 = A1 ∨ A1.setAlignment w = .ok A2) (hb : mkBuilder be ct A2 w t = .ok b)
    (hk : PositiveDensity ext) (he : Estimable ext A w) (hw : ∀ c ∈ w, 1 / 10 ^ 8 < |c|) {j : ℕ} (hj : j < names.length)
    (hden : (A.yDesired : K) * (w.getD j 0 + t) < 0) :
    ∃ b1, b.setX ext (unitVec names.length j) = (b1, .ok ()) ∧
    ∀ b2, b1.Refitted o b2 → ∃ b3 i, b2.fit o = .ok (b3, i) ∧
      (i.feasible = true ↔ (∃ c < names.length, 0 ≤ (A.yDesired : K) * (w.getD c 0 + t)) ∨
        (lb = 0 ∧ 0 ≤ (A.yDesired : K) * t)) ∧
      (i.feasible = true → ∃ a, i.actions = some a ∧ a.length = names.length ∧
        ((∃ c < names.length, vadd (unitVec names.length j) a = unitVec names.length c ∧
            0 ≤ (A.yDesired : K) * (w.getD c 0 + t)) ∨
          (lb = 0 ∧ vadd (unitVec names.length j) a = List.replicate names.length 0 ∧ 0 ≤ (A.yDesired : K) * t))) := by
  obtain ⟨hr, hn, hy, hwl, hmax, hna, ⟨k, hki, hkp, hklb, hkub⟩, hel⟩ := group_elem (ext := ext) hA hc hal hb
  obtain ⟨-, hnd, -, -, hXl, -, hAl, -, hy1, -⟩ := C17_construction hA
  obtain ⟨-, hcf, hint, -, -, hmin, -⟩ := mkBuilder_parts hb
  have h8 : (0 : K) < 1 / 10 ^ 8 := by positivity
  have hw0 : ∀ c ∈ w, c ≠ 0 := by
    rintro c hc rfl
    have := hw 0 hc
    rw [abs_zero] at this
    exact absurd this (not_lt.mpr h8.le)
  have hx1 : ZeroOne (unitVec names.length j : List K) := unitVec_zeroOne _ _
  have hxl : (unitVec names.length j : List K).length = names.length := unitVec_length _ _
  have hG : LeadingGroup X names g w (unitVec names.length j) :=
    leading_all (fun r hr => ⟨hX r hr, hXl r hr⟩) hg hwl hw0 hx1 hxl
  have hwi := binary_within hA hX hx1
  have hreg := group_regular (ext := ext) hA hc hal hb hG hk hwi
  have hok := (C92_accepts hso hlog hA hc hal hb hG hk (fun c hc => Or.inr (hw c hc)) hwi).mpr ⟨hxl, he⟩
  have hdot : ∀ c, c < names.length → dot w (unitVec names.length c) = w.getD c 0 := by
    intro c hc
    have := dot_unitVec (w := w) (c := c) (by rw [hwl]; exact hc)
    rwa [hwl] at this
  have hd : Denied b (unitVec names.length j) := by
    unfold Denied
    rw [hy, hcf, hint, hdot j hj]; exact hden
  have hp1 : 1 ≤ names.length := by omega
  have hkn : k.names.Perm names := hkp.trans hg
  refine ⟨_, Prod.ext rfl hok, ?_⟩
  intro b2 ha
  have hs : b.setX ext (unitVec names.length j) = ((b.setX ext (unitVec names.length j)).1, .ok ()) := Prod.ext rfl hok
  obtain ⟨b3, i, hf⟩ : ∃ b3 i, b2.fit o = .ok (b3, i) := by
    obtain ⟨feats, h1, h2, h3⟩ := Posed.setX hso hr.ok hs
    obtain ⟨m, hm, -⟩ := (h3.refitted ha).mip
    unfold Builder.fit; rw [hm]; exact ⟨_, _, rfl⟩
  refine ⟨b3, i, hf, ?_⟩
  have hfe := (C25_no_recourse hso hlog.ok ho hr hreg hd hs ha hf).2 hna
  -- what an action can reach
  have hreach : ∀ a : List K, PermittedAction b.aset (unitVec names.length j) a →
      RespectsLimits b.aset (unitVec names.length j) a →
      ReachesScore b.aset.yDesired b.coefs b.intercept (unitVec names.length j) a →
      ((∃ c < names.length, vadd (unitVec names.length j) a = unitVec names.length c ∧
            0 ≤ (A.yDesired : K) * (w.getD c 0 + t)) ∨
          (lb = 0 ∧ vadd (unitVec names.length j) a = List.replicate names.length 0 ∧ 0 ≤ (A.yDesired : K) * t)) := by
    intro a hp hl hsc
    unfold ReachesScore at hsc
    rw [hy, reaches_iff hy1, hcf, hint] at hsc
    have hvl : (vadd (unitVec names.length j) a).length = names.length := by
      unfold vadd; rw [List.length_zipWith, hp.1, min_self, hxl]
    have hv01 : ZeroOne (vadd (unitVec names.length j) a) := by
      intro v hv
      obtain ⟨l, hl⟩ := List.mem_iff_getElem?.mp hv
      unfold vadd at hl
      obtain ⟨xj, aj, hxj, haj, rfl⟩ := List.getElem?_zipWith_eq_some.mp hl
      have hlt : l < names.length := by rw [← hxl]; exact (List.getElem?_eq_some_iff.mp hxj).1
      obtain ⟨e, he⟩ : ∃ e, b.aset.elems[l]? = some e :=
        ⟨_, List.getElem?_eq_getElem (by rw [hr.ok.aset.wf.length, hn]; exact hlt)⟩
      rcases hp.2 l e xj aj he hxj haj with h | ⟨-, h, -⟩
      · rw [h]; exact hx1 _ (List.mem_of_getElem? hxj)
      · obtain ⟨e0, c, he0, -, rfl, -⟩ := hel l e he
        dsimp only at h
        rw [(binary_elems hA hX e0 (List.mem_of_getElem? he0)).1] at h
        simpa using h
    have hcount := hl k (by rw [hki]; simp)
    unfold numNonzero at hcount
    rw [hn, count_names hnd hvl hkn, hklb, hkub] at hcount
    rcases onehot_cases hv01 (by exact_mod_cast hcount.2) with ⟨h1, h2⟩ | ⟨c, hlt, h1, h2⟩
    · right
      rw [hvl] at h1
      rw [h2] at hcount
      obtain ⟨-, -, -, hlb0, -⟩ := (add_ok (bind_ok_iff.mp hc).choose_spec.1).2.2
      refine ⟨by have := hcount.1; push_cast at this; omega, h1, ?_⟩
      rw [h1, dot_replicate, zero_add] at hsc; exact hsc
    · left
      rw [hvl] at hlt h1
      refine ⟨c, hlt, h1, ?_⟩
      rw [h1, hdot c hlt] at hsc; exact hsc
  have hmove : ∀ v : List K, v.length = names.length → ZeroOne v → lb ≤ (v.countP fun u => decide (u ≠ 0) : ℕ) →
      (v.countP fun u => decide (u ≠ 0)) ≤ 1 → 0 ≤ (A.yDesired : K) * (dot w v + t) →
      ∃ a, PermittedAction b.aset (unitVec names.length j) a ∧ RespectsLimits b.aset (unitVec names.length j) a ∧
      ReachesScore b.aset.yDesired b.coefs b.intercept (unitVec names.length j) a := by
    intro v hvl hv01 hlb1 hub1 hsc
    have hv : vadd (unitVec names.length j) (List.zipWith (· - ·) v (unitVec names.length j)) = v := by
      apply List.ext_getElem?
      intro l
      unfold vadd
      rw [List.getElem?_zipWith, List.getElem?_zipWith]
      by_cases hl : l < names.length
      · rw [List.getElem?_eq_getElem (by rw [hxl]; exact hl), List.getElem?_eq_getElem (by rw [hvl]; exact hl)]
        simp
      · rw [List.getElem?_eq_none (by rw [hxl]; omega), List.getElem?_eq_none (by rw [hvl]; omega)]
    refine ⟨List.zipWith (· - ·) v (unitVec names.length j), ⟨?_, ?_⟩, ?_, ?_⟩
    · rw [List.length_zipWith, hvl, hxl, min_self]
    · intro l e xl al he hxl' hal'
      obtain ⟨u, xl', hu, hx', rfl⟩ := List.getElem?_zipWith_eq_some.mp hal'
      rw [hxl'] at hx'; cases hx'
      obtain ⟨e0, c, he0, -, rfl, -, hact, hdir⟩ := hel l e he
      refine Or.inr ⟨hact, ?_, ?_⟩
      · dsimp only
        rw [(binary_elems hA hX e0 (List.mem_of_getElem? he0)).1]
        have : xl + (u - xl) = u := by ring
        rw [this]
        rcases hv01 u (List.mem_of_getElem? hu) with h | h <;> rw [h] <;> simp
      · dsimp only; rw [hdir]; exact ⟨fun h => absurd h (by simp), fun h => absurd h (by simp)⟩
    · intro k' hk'
      rw [hki, List.mem_singleton] at hk'
      subst hk'
      unfold numNonzero
      rw [hv, hn, count_names hnd hvl hkn, hklb, hkub]
      exact ⟨hlb1, by exact_mod_cast hub1⟩
    · unfold ReachesScore
      rw [hy, reaches_iff hy1, hcf, hint, hv]; exact hsc
  have hiff : i.feasible = true ↔ ∃ a, PermittedAction b.aset (unitVec names.length j) a ∧
      RespectsLimits b.aset (unitVec names.length j) a ∧
      ReachesScore b.aset.yDesired b.coefs b.intercept (unitVec names.length j) a := by
    cases hi : i.feasible with
    | false => simp only [Bool.false_eq_true, false_iff]; exact hfe.mp hi
    | true => 
      simp only [true_iff]
      by_contra hno
      rw [hfe.mpr hno] at hi; cases hi
  refine ⟨hiff.trans ⟨?_, ?_⟩, ?_⟩
  · rintro ⟨a, h1, h2, h3⟩
    rcases hreach a h1 h2 h3 with ⟨c, hlt, -, h⟩ | ⟨h0, -, h⟩
    · exact Or.inl ⟨c, hlt, h⟩
    · exact Or.inr ⟨h0, h⟩
  · rintro (⟨c, hlt, h⟩ | ⟨h0, h⟩)
    · refine hmove _ (unitVec_length _ c) (unitVec_zeroOne _ _) ?_ ?_ ?_
      · rw [countP_unitVec hlt]
        obtain ⟨-, -, -, -, hlu, -⟩ := (add_ok (bind_ok_iff.mp hc).choose_spec.1).2.2
        exact_mod_cast hlu
      · rw [countP_unitVec hlt]
      · rw [hdot c hlt]; exact h
    · refine hmove (List.replicate names.length 0) (by simp) (fun v hv => Or.inl (List.eq_of_mem_replicate hv)) ?_ ?_ ?_
      · rw [h0]; exact_mod_cast Nat.zero_le _
      · simp [List.countP_replicate]
      · rw [dot_replicate, zero_add]; exact h
  · intro hi
    have hso' := ho.1
    obtain ⟨a, ha1, hrec⟩ := C22_actionable hso ho.1 hr hs ha.after hf hi
    obtain ⟨a', ha1', hlim⟩ := C35_subset_partial hso ho.1 hr hs ha.after hf hi hreg.limits
    rw [ha1] at ha1'; cases ha1'
    exact ⟨a, ha1, by rw [hrec.permitted.1, hxl], hreach a hrec.permitted hlim hrec.score⟩

/-- **C92**, the project's own test (`test_rb_onehot_encoding`), for all data, numbers of categories, densities and cost types:
`w = (3, -1, ..., -1)`, `t = -1`, at most one indicator; a person of category `j > 0` is accepted, the answer is feasible
and moves the person to category 0. -/
theorem C92_test (hso : SetOrderOk ext) (hlog : LogIncreasing ext) (ho : o.Exact)
    (hA : mkActionSet X names 1 [] dflt st = .ok A) (hX : ∀ r ∈ X, ZeroOne r)
    (hc : A.addConstraint names 0 1 none = .ok (A1, cid)) (hw : w = 3 :: List.replicate (names.length - 1) (-1))
    (hal : A1.setAlignment w = .ok A2) (hb : mkBuilder be ct A2 w (-1) = .ok b) (hk : PositiveDensity ext)
    (he : Estimable ext A w) {j : ℕ} (hj0 : 0 < j) (hj : j < names.length) :
    b.score (unitVec names.length j) = -2 ∧
    ∃ b1, b.setX ext (unitVec names.length j) = (b1, .ok ()) ∧ ∃ b2 i a, b1.fit o = .ok (b2, i) ∧ i.feasible = true ∧
      i.actions = some a ∧ a.length = names.length ∧ vadd (unitVec names.length j) a = unitVec names.length 0 ∧
      b.score (vadd (unitVec names.length j) a) = 2 ∧ a[j]? = some (-1) ∧ (vadd (unitVec names.length j) a).sum = 1 := by
  obtain ⟨-, -, -, hwl, -⟩ := group_elem (ext := ext) hA hc (Or.inr hal) hb
  obtain ⟨-, hcf, hint, -⟩ := mkBuilder_parts hb
  have hyA : A.yDesired = 1 := by rw [(mkActionSet_spec hA).2.2.2.2.2.2.2]; rfl
  have h0 : w.getD 0 0 = 3 := by rw [hw]; rfl
  have hc1 : ∀ c, 0 < c → c < names.length → w.getD c 0 = -1 := by
    intro c h1 h2
    obtain ⟨c, rfl⟩ : ∃ c', c = c' + 1 := ⟨c - 1, by omega⟩
    rw [hw, List.getD_cons_succ, List.getD_eq_getElem _ _ (by simp; omega), List.getElem_replicate]
  have hdot : ∀ c, c < names.length → dot w (unitVec names.length c) = w.getD c 0 := by
    intro c hc
    have := dot_unitVec (w := w) (c := c) (by rw [hwl]; exact hc)
    rwa [hwl] at this
  have h8 : ∀ c ∈ w, (1 : K) / 10 ^ 8 < |c| := by
    have h1 : (1 : K) / 10 ^ 8 < 1 := by rw [div_lt_one (by positivity)]; norm_num
    intro c hc
    rw [hw] at hc
    rcases List.mem_cons.mp hc with rfl | hc
    · rw [abs_of_pos (by norm_num)]; linarith
    · rw [List.eq_of_mem_replicate hc, abs_neg, abs_one]; exact h1
  refine ⟨by unfold Builder.score; rw [hcf, hint, hdot j hj, hc1 j hj0 hj]; norm_num, ?_⟩
  obtain ⟨b1, hs, hfit⟩ := C92_categories (j := j) hso hlog ho hA hX hc (List.Perm.refl _) (Or.inr hal) hb hk he h8 hj (by
    rw [hyA, hc1 j hj0 hj]; norm_num)
  obtain ⟨b2, i, hf, hiff, hact⟩ := hfit b1 .refl
  have hi : i.feasible = true := hiff.mpr (Or.inl ⟨0, by omega, by rw [hyA, h0]; norm_num⟩)
  obtain ⟨a, ha, hal', hcase⟩ := hact hi
  have hv : vadd (unitVec names.length j) a = unitVec names.length 0 := by
    rcases hcase with ⟨c, hlt, hv, hpos⟩ | ⟨-, -, hpos⟩
    · rcases Nat.eq_zero_or_pos c with rfl | hcp
      · exact hv
      · rw [hyA, hc1 c hcp hlt] at hpos; norm_num at hpos
    · rw [hyA] at hpos; norm_num at hpos
  refine ⟨b1, hs, b2, i, a, hf, hi, ha, hal', hv, ?_, ?_, ?_⟩
  · unfold Builder.score
    rw [hv, hcf, hint, hdot 0 (by omega), h0]; norm_num
  · have h1 := congrArg (fun l => l[j]?) hv
    unfold vadd at h1
    simp only [unitVec, List.getElem?_map, List.getElem?_zipWith, List.getElem?_range hj, Option.map_some,
      if_neg (show j ≠ 0 by omega)] at h1
    cases haj : a[j]? with
    | none => rw [haj] at h1; cases h1
    | some aj =>
      rw [haj] at h1
      have h2 := Option.some.inj h1
      simp only [if_true] at h2
      congr 1; linarith
  · rw [hv]
    obtain ⟨n, hn⟩ : ∃ n, names.length = n + 1 := ⟨names.length - 1, by omega⟩
    rw [hn, unitVec_zero]; simp

/-- Non-vacuity of `C92_test`, and so of the others: three categories, for both back ends and all cost types. -/
example (be : Backend) (ct : CostType) : ∃ (A A1 A2 : ActionSet ℚ) (cid : String) (b : Builder ℚ),
    mkActionSet [[1, 0, 0], [0, 1, 0], [0, 0, 1]] ["a", "b", "c"] 1 [] defaultBounds (.str "relative") = .ok A ∧
    A.addConstraint ["a", "b", "c"] 0 1 none = .ok (A1, cid) ∧ A1.setAlignment [3, -1, -1] = .ok A2 ∧
    mkBuilder be ct A2 [3, -1, -1] (-1) = .ok b ∧ Estimable exExt A [3, -1, -1] ∧
    ∀ o : Oracle ℚ, o.Exact → ∃ b1 b2 i, b.setX exExt [0, 0, 1] = (b1, .ok ()) ∧ b1.fit o = .ok (b2, i) ∧
      i.actions = some [1, 0, -1] := by
  have key : ∀ be ct, ∃ A, mkActionSet [[1, 0, 0], [0, 1, 0], [0, 0, (1 : ℚ)]] ["a", "b", "c"] 1 [] defaultBounds (.str "relative") = .ok A ∧
      ∃ p, A.addConstraint ["a", "b", "c"] 0 1 none = .ok p ∧ ∃ A2, p.1.setAlignment [3, -1, -1] = .ok A2 ∧
      ∃ b, mkBuilder be ct A2 [3, -1, -1] (-1) = .ok b ∧ True := by
    intro be ct; cases be <;> cases ct <;> decide +kernel
  obtain ⟨A, hA, ⟨A1, cid⟩, hc, A2, hal, b, hb, -⟩ := key be ct
  refine ⟨A, A1, A2, cid, b, hA, hc, hal, hb, fun _ _ _ _ _ _ => ⟨_, rfl⟩, ?_⟩
  intro o ho
  obtain ⟨-, b1, hs, b2, i, a, hf, -, ha, hl, hv, -⟩ := C92_test (j := 2) exExt_order exExt_increasing ho hA (by
    intro r hr; fin_cases hr <;> simp [ZeroOne]) hc rfl hal hb exExt_density (fun _ _ _ _ _ _ => ⟨_, rfl⟩) (by omega) (by decide)
  refine ⟨b1, b2, i, hs, hf, ?_⟩
  rw [ha]
  have hx : (unitVec 3 2 : List ℚ) = [0, 0, 1] := by decide +kernel
  have h0 : (unitVec 3 0 : List ℚ) = [1, 0, 0] := by decide +kernel
  change vadd (unitVec 3 2) a = unitVec 3 0 at hv
  rw [hx, h0] at hv
  obtain ⟨p, q, r, rfl⟩ := List.length_eq_three.mp hl
  simp only [vadd, List.zipWith_cons_cons, List.zipWith_nil_left, List.cons.injEq, and_true] at hv
  obtain ⟨h1, h2, h3⟩ := hv
  rw [show p = 1 by linarith, show q = 0 by linarith, show r = -1 by linarith]

end

end Recourse
