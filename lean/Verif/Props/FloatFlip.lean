import Verif.Model.FloatFlip
import Verif.Props.FloatAudit
import Verif.Props.FlipUse
import Verif.Props.Enum
import Verif.Lemmas.Compare

/-!
# C109: flipsets in floating point arithmetic
-/

set_option linter.unusedSectionVars false

namespace Recourse

variable {K : Type} [Field K] [LinearOrder K] [IsStrictOrderedRing K] [FloorRing K]

variable {ext : Ext K} {o : Oracle K} {fs fs' : Flipset K} {be : Backend} {A : ActionSet K} {x w : List K} {t : K} {r : Rounding K} {dX dB : K}
  {dN : List K → K} {ord : Option (List SortCol)}

/-! ## Specification -/

/-- What is assumed of an action set: features with any increasing grids (integral for integer features), however they were computed. -/
structure SetGrids (A : ActionSet K) : Prop where
  columns : A.Columns
  names : A.elems.map (·.name) = A.names
  grids : ∀ e ∈ A.elems, e.GridOk
  cons : ∀ k ∈ A.cons.items, k.WF A.names

/-- Use of a flipset in floating point arithmetic: `populate` (successful or not), `sort` and `to_flat_df`; the first index is the order in force
(`none`: none). -/
inductive Flipset.UsedFl (r : Rounding K) (ext : Ext K) (o : Oracle K) (dX : K) (dN : List K → K) (dB : K) (fs0 : Flipset K) :
    Option (List SortCol) → Flipset K → Prop
  | refl : Flipset.UsedFl r ext o dX dN dB fs0 (some [.size, .cost, .scoreNew]) fs0
  | populate {ord : Option (List SortCol)} {fs fs' : Flipset K} {fuel : ℕ} {total : Option ℕ} {et : EnumType} {ct : CostType}
      {res : Except Err Unit} (hr : Flipset.UsedFl r ext o dX dN dB fs0 ord fs)
      (h : fs.populateFl r ext o dX dN dB fuel total et ct = some (fs', res)) : Flipset.UsedFl r ext o dX dN dB fs0 ord fs'
  | sortBy {ord : Option (List SortCol)} {fs fs' : Flipset K} {cols : List SortCol} {inplace : Bool}
      (hr : Flipset.UsedFl r ext o dX dN dB fs0 ord fs) (h : fs.sort cols inplace = .ok fs') :
      Flipset.UsedFl r ext o dX dN dB fs0 (if inplace then some cols else none) fs'
  | resort {ord : Option (List SortCol)} {fs : Flipset K} (hr : Flipset.UsedFl r ext o dX dN dB fs0 ord fs) :
      Flipset.UsedFl r ext o dX dN dB fs0 ord fs.resort
  | flat {ord : Option (List SortCol)} {fs : Flipset K} (hr : Flipset.UsedFl r ext o dX dN dB fs0 ord fs) :
      Flipset.UsedFl r ext o dX dN dB fs0 ord fs.toFlat.1

/-- The error of the dot product at `x + a`. -/
def newError (r : Rounding K) (w x a : List K) : K := ((1 + r.u) ^ ((List.zipWith (· * ·) w (vadd x a)).length + 1) - 1) * absDot w (vadd x a)

/-- `row` describes item `i` up to rounding: its changed features in increasing order of index, with names, current values, and new values up to a relative error of `u`;
cost; the score up to its error; and the predicted outcome, which is the true one unless the score is within the error of 0. -/
structure DescribesFl (r : Rounding K) (names : List String) (x w : List K) (t : K) (i : Info K) (row : FlipRow K) : Prop where
  ex : ∃ a, i.actions = some a ∧ a.length = names.length ∧ x.length = names.length ∧ w.length = names.length ∧
    row.featureIdx.Pairwise (· < ·) ∧ (∀ j : ℕ, j ∈ row.featureIdx ↔ j < a.length ∧ a.getD j 0 ≠ 0) ∧
    row.features = row.featureIdx.map (fun j => names.getD j "") ∧
    row.x = row.featureIdx.map (fun j => x.getD j 0) ∧
    List.Forall₂ (fun j v => |v - (vadd x a).getD j 0| ≤ r.u * |(vadd x a).getD j 0|) row.featureIdx row.xNew ∧
    row.size = numChanged a ∧
    |row.scoreNew - (dot w (vadd x a) + t)| ≤ (1 + r.u) * newError r w x a + r.u * |dot w (vadd x a) + t| ∧
    row.yhatNew = sgn row.scoreNew ∧
    (newError r w x a < |dot w (vadd x a) + t| → row.yhatNew = sgn (dot w (vadd x a) + t))
  cost : row.cost = i.cost
  feasible : row.feasible = i.feasible

/-! ## Scores -/

theorem absDot_nonneg (w x : List K) : 0 ≤ absDot w x := sum_abs_nonneg _

theorem vaddFl_length (r : Rounding K) (x a : List K) : (vaddFl r x a).length = (vadd x a).length := by
  unfold vaddFl vadd; simp

theorem absDot_vaddFl (r : Rounding K) (w x a : List K) : absDot w (vaddFl r x a) ≤ (1 + r.u) * absDot w (vadd x a) := by
  unfold absDot
  induction w generalizing x a with
  | nil => simp
  | cons p w ih =>
    cases x with
    | nil => simp [vaddFl, vadd]
    | cons y x =>
      cases a with
      | nil => simp [vaddFl, vadd]
      | cons z a =>
        have := ih x a
        simp only [vaddFl, vadd, List.zipWith_cons_cons, List.map_cons, List.sum_cons] at this ⊢
        have h1 := r.near (y + z)
        have h2 := abs_add_le (r.fl (y + z) - (y + z)) (y + z)
        rw [sub_add_cancel] at h2
        have h3 : |p * r.fl (y + z)| ≤ (1 + r.u) * |p * (y + z)| := by
          rw [abs_mul, abs_mul]
          have := mul_le_mul_of_nonneg_left (h2.trans (by linarith : _ ≤ (1 + r.u) * |y + z|)) (abs_nonneg p)
          calc _ ≤ _ := this
            _ = _ := by ring
        rw [mul_add]
        exact add_le_add h3 this

theorem dot_vaddFl (r : Rounding K) (w x a : List K) : |dot w (vaddFl r x a) - dot w (vadd x a)| ≤ r.u * absDot w (vadd x a) := by
  unfold absDot dot
  induction w generalizing x a with
  | nil => simp
  | cons p w ih =>
    cases x with
    | nil => simp [vaddFl, vadd]
    | cons y x =>
      cases a with
      | nil => simp [vaddFl, vadd]
      | cons z a =>
        have := ih x a
        simp only [vaddFl, vadd, List.zipWith_cons_cons, List.map_cons, List.sum_cons] at this ⊢
        have h1 := r.near (y + z)
        have h3 : |p * r.fl (y + z) - p * (y + z)| ≤ r.u * |p * (y + z)| := by
          rw [← mul_sub, abs_mul, abs_mul]
          have := mul_le_mul_of_nonneg_left h1 (abs_nonneg p)
          calc _ ≤ _ := this
            _ = _ := by ring
        rw [mul_add r.u, add_sub_add_comm]
        exact (abs_add_le _ _).trans (add_le_add h3 this)

/-- The dot product with the rounded sum. -/
theorem newError_ok {a : List K} {d : K} (h : FlDot r w (vaddFl r x a) d) : |d - dot w (vadd x a)| ≤ newError r w x a := by
  have h1 := h.error
  have h2 := dot_vaddFl r w x a
  have h3 := absDot_vaddFl r w x a
  have h4 : |d - dot w (vadd x a)| ≤ |d - dot w (vaddFl r x a)| + |dot w (vaddFl r x a) - dot w (vadd x a)| := by
    have := abs_add_le (d - dot w (vaddFl r x a)) (dot w (vaddFl r x a) - dot w (vadd x a))
    rwa [sub_add_sub_cancel] at this
  unfold dotError at h1
  have hl : (List.zipWith (· * ·) w (vaddFl r x a)).length = (List.zipWith (· * ·) w (vadd x a)).length := by
    rw [List.length_zipWith, List.length_zipWith, vaddFl_length]
  rw [hl] at h1
  unfold newError
  set n := (List.zipWith (· * ·) w (vadd x a)).length
  have h5 := mul_le_mul_of_nonneg_left h3 (by linarith [one_le_pow_u r n] : 0 ≤ (1 + r.u) ^ n - 1)
  rw [pow_succ]
  have h6 : ((1 + r.u) ^ n * (1 + r.u) - 1) * absDot w (vadd x a) =
      ((1 + r.u) ^ n - 1) * ((1 + r.u) * absDot w (vadd x a)) + r.u * absDot w (vadd x a) := by ring
  linarith

/-! ## Adding items -/

/-- An accepted item. -/
structure ItemFl (r : Rounding K) (dX : K) (dN : List K → K) (fs : Flipset K) (i : Info K) : Prop where
  act : ∃ a, i.actions = some a ∧ a.length = fs.names.length ∧ fs.x.length = fs.names.length ∧
    fs.coefs.length = fs.names.length ∧ 1 ≤ (flatnonzero a).length ∧ fs.yhatFl r dX ≠ (fs.predictFl r (dN a) : K)
  cost : i.cost.pos = true
  feasible : i.feasible = true

theorem validateItemFl_ok {i i' : Info K} (h : fs.validateItemFl r dX dN i = .ok i') : i' = i ∧ ItemFl r dX dN fs i := by
  unfold Flipset.validateItemFl at h
  obtain ⟨a, ha, h⟩ := bind_ok_iff.mp h
  obtain ⟨h1, h⟩ := pyAssert_bind_ok.mp h
  obtain ⟨h2, h⟩ := pyAssert_bind_ok.mp h
  cases h
  unfold Flipset.validateActionFl at ha
  cases hact : i.actions with
  | none => rw [hact] at ha; cases ha
  | some a' =>
    rw [hact] at ha
    dsimp only at ha
    by_cases hl : a'.length ≠ fs.names.length
    · rw [if_pos hl] at ha; cases ha
    rw [if_neg hl] at ha
    obtain ⟨h3, ha⟩ := pyAssert_bind_ok.mp ha
    by_cases hd : fs.x.length ≠ a'.length ∨ fs.coefs.length ≠ a'.length
    · rw [if_pos hd] at ha; cases ha
    rw [if_neg hd] at ha
    obtain ⟨h4, ha⟩ := pyAssert_bind_ok.mp ha
    have hae : a' = a := by injection ha
    subst hae
    push Not at hl hd
    refine ⟨?_, ⟨a', hact, hl, hd.1.trans hl, hd.2.trans hl, of_decide_eq_true h3, of_decide_eq_true h4⟩, h1, h2⟩
    rw [← hact]

theorem validateItemFl_iff {i : Info K} : fs.validateItemFl r dX dN i = .ok i ↔ ItemFl r dX dN fs i := by
  refine ⟨fun h => (validateItemFl_ok h).2, fun ⟨⟨a, h1, h2, h3, h4, h5, h6⟩, hc, hf⟩ => ?_⟩
  unfold Flipset.validateItemFl Flipset.validateActionFl
  rw [h1]
  dsimp only
  have hd : ¬ (fs.x.length ≠ a.length ∨ fs.coefs.length ≠ a.length) := by
    rw [h3, h4, h2]; simp
  rw [if_neg (not_not.mpr h2), decide_eq_true h5, pyAssert_true, ok_bind, if_neg hd, decide_eq_true h6, pyAssert_true,
    ok_bind, ok_bind, hc, pyAssert_true, ok_bind]
  obtain ⟨⟩ := i
  simp only at h1 hf
  subst h1 hf
  rfl

theorem mapM_validateFl {l l' : List (Info K)} (h : l.mapM (fs.validateItemFl r dX dN) = .ok l') :
    l' = l ∧ ∀ i ∈ l, ItemFl r dX dN fs i := by
  induction l generalizing l' with
  | nil => cases h; exact ⟨rfl, by simp⟩
  | cons a l ih =>
    obtain ⟨b, bs, h1, h2, rfl⟩ := mapM_ok_cons.mp h
    obtain ⟨rfl, g1⟩ := validateItemFl_ok h1
    obtain ⟨rfl, g2⟩ := ih h2
    refine ⟨rfl, fun i hi => ?_⟩
    rcases List.mem_cons.mp hi with rfl | hi
    · exact g1
    · exact g2 i hi

theorem mapM_validateFl_ok {l : List (Info K)} (h : ∀ i ∈ l, ItemFl r dX dN fs i) : l.mapM (fs.validateItemFl r dX dN) = .ok l := by
  induction l with
  | nil => rfl
  | cons a l ih =>
    exact mapM_ok_cons.mpr ⟨a, l, validateItemFl_iff.mpr (h a (by simp)),
      ih fun i hi => h i (List.mem_cons_of_mem _ hi), rfl⟩

/-- The table after appending items, before sorting. -/
def Flipset.appendedFl (r : Rounding K) (dX : K) (dN : List K → K) (fs : Flipset K) (items : List (Info K)) : Flipset K :=
  { fs with items := fs.items ++ items, rows := relabel (fs.rows ++ items.map (fs.itemRowFl r dX dN 0)) }

theorem addFl_ok {items : List (Info K)} (h : fs.addFl r dX dN items = .ok fs') :
    (∀ i ∈ items, ItemFl r dX dN fs i) ∧
    fs' = (if items.isEmpty then fs else (fs.appendedFl r dX dN items).resort) := by
  unfold Flipset.addFl at h
  obtain ⟨l, hl, h2⟩ := bind_ok_iff.mp h
  clear h
  obtain ⟨rfl, hok⟩ := mapM_validateFl hl
  rename' h2 => h
  dsimp only at h
  refine ⟨hok, ?_⟩
  by_cases he : l.isEmpty = true
  · rw [if_pos he] at h ⊢
    cases h
    rw [List.isEmpty_iff.mp he, List.append_nil]
  · rw [if_neg he] at h ⊢
    cases h
    rfl

theorem addFl_runs {l : List (Info K)} (h : ∀ i ∈ l, ItemFl r dX dN fs i) : ∃ fs', fs.addFl r dX dN l = .ok fs' := by
  unfold Flipset.addFl
  rw [mapM_validateFl_ok h, ok_bind]
  dsimp only
  by_cases he : l.isEmpty = true
  · rw [if_pos he]; exact ⟨_, rfl⟩
  · rw [if_neg he]; exact ⟨_, rfl⟩

/-- The builder that `populate` works with. -/
def Flipset.MadeFl (r : Rounding K) (ext : Ext K) (dB : K) (fs : Flipset K) (ct : CostType) (A : ActionSet K) (b0 : Builder K) : Prop :=
  (fs.builder = some b0 ∧ A = fs.aset) ∨ (fs.builder = none ∧ ∃ c,
    mkBuilder fs.backend ct fs.aset fs.coefs fs.intercept = .ok c ∧ c.setXFl r ext dB fs.x = (b0, .ok ()) ∧ A = b0.aset)

theorem populateFl_cases {fuel : ℕ} {total : Option ℕ} {et : EnumType} {ct : CostType} {res : Except Err Unit}
    (h : fs.populateFl r ext o dX dN dB fuel total et ct = some (fs', res)) :
    (∃ er, res = .error er ∧ fs' = fs ∧ fs.builder = none ∧
      mkBuilder fs.backend ct fs.aset fs.coefs fs.intercept = .error er) ∨
    (∃ er c b0, res = .error er ∧ fs.builder = none ∧
      mkBuilder fs.backend ct fs.aset fs.coefs fs.intercept = .ok c ∧ c.setXFl r ext dB fs.x = (b0, .error er) ∧
      fs' = { fs with aset := b0.aset }) ∨
    (∃ er A b0, res = .error er ∧ fs.MadeFl r ext dB ct A b0 ∧ b0.populate o et fuel total = .error er ∧
      fs' = { fs with aset := A, builder := some b0 }) ∨
    (∃ er A b0 b infos, res = .error er ∧ fs.MadeFl r ext dB ct A b0 ∧ b0.populate o et fuel total = .ok (some (b, infos)) ∧
      ({ fs with aset := A, builder := some b } : Flipset K).addFl r dX dN infos = .error er ∧
      fs' = { fs with aset := A, builder := some b }) ∨
    (∃ A b0 b infos, res = .ok () ∧ fs.MadeFl r ext dB ct A b0 ∧ b0.populate o et fuel total = .ok (some (b, infos)) ∧
      ({ fs with aset := A, builder := some b } : Flipset K).addFl r dX dN infos = .ok fs') := by
  unfold Flipset.populateFl at h
  cases hb : fs.builder with
  | some b0 =>
    have hm : fs.MadeFl r ext dB ct fs.aset b0 := Or.inl ⟨hb, rfl⟩
    simp only [hb] at h
    cases hp : b0.populate o et fuel total with
    | error er =>
      simp only [hp] at h; cases h
      refine Or.inr (Or.inr (Or.inl ⟨er, fs.aset, b0, rfl, hm, hp, ?_⟩))
      rw [← hb]
    | ok q =>
      simp only [hp] at h
      cases q with
      | none => cases h
      | some q =>
        obtain ⟨b, infos⟩ := q
        dsimp only at h
        cases ha : ({ fs with builder := some b } : Flipset K).addFl r dX dN infos with
        | error er =>
          simp only [ha] at h; cases h
          exact Or.inr (Or.inr (Or.inr (Or.inl ⟨er, fs.aset, b0, b, infos, rfl, hm, hp, ha, rfl⟩)))
        | ok fs2 =>
          simp only [ha] at h; cases h
          exact Or.inr (Or.inr (Or.inr (Or.inr ⟨fs.aset, b0, b, infos, rfl, hm, hp, ha⟩)))
  | none =>
    simp only [hb] at h
    cases hm : mkBuilder fs.backend ct fs.aset fs.coefs fs.intercept with
    | error er => simp only [hm] at h; cases h; exact Or.inl ⟨er, rfl, rfl, rfl, rfl⟩
    | ok c =>
      simp only [hm] at h
      cases hx : c.setXFl r ext dB fs.x with
      | mk b0 res =>
        cases res with
        | error er =>
          simp only [hx] at h; cases h
          refine Or.inr (Or.inl ⟨er, c, b0, rfl, rfl, rfl, hx, ?_⟩)
          rw [← hb]
        | ok u =>
          simp only [hx] at h
          have hM : fs.MadeFl r ext dB ct b0.aset b0 := Or.inr ⟨hb, c, hm, hx, rfl⟩
          cases hp : b0.populate o et fuel total with
          | error er =>
            simp only [hp] at h; cases h
            exact Or.inr (Or.inr (Or.inl ⟨er, b0.aset, b0, rfl, hM, hp, rfl⟩))
          | ok q =>
            simp only [hp] at h
            cases q with
            | none => cases h
            | some q =>
              obtain ⟨b, infos⟩ := q
              dsimp only at h
              cases ha : ({ fs with aset := b0.aset, builder := some b } : Flipset K).addFl r dX dN infos with
              | error er =>
                simp only [ha] at h; cases h
                exact Or.inr (Or.inr (Or.inr (Or.inl ⟨er, b0.aset, b0, b, infos, rfl, hM, hp, ha, rfl⟩)))
              | ok fs2 =>
                simp only [ha] at h; cases h
                exact Or.inr (Or.inr (Or.inr (Or.inr ⟨b0.aset, b0, b, infos, rfl, hM, hp, ha⟩)))

/-! ## The table -/

/-- What holds of the table in every history. -/
structure Flipset.InvFl (r : Rounding K) (dX : K) (dN : List K → K) (ord : Option (List SortCol)) (fs : Flipset K) : Prop where
  items : ∀ i ∈ fs.items, ItemFl r dX dN fs i ∧ ∃ c, i.cost = .fin c
  rows : (fs.items.map (fs.itemRowFl r dX dN 0)).Perm (fs.rows.map FlipRow.bare)
  labels : (fs.rows.map (·.label)).Perm (List.range fs.rows.length)
  inplace : fs.sortInplace = ord.isSome
  cols : ∀ cols, ord = some cols → fs.sortBy = cols
  sorted : ∀ cols, ord = some cols → fs.rows.Pairwise fun r s => rowLe cols r s = true

theorem Flipset.InvFl.congr (h : fs.InvFl r dX dN ord) (A' : ActionSet K) (b : Option (Builder K)) :
    ({ fs with aset := A', builder := b } : Flipset K).InvFl r dX dN ord :=
  ⟨fun i hi => ⟨⟨((h.items i hi).1).act, ((h.items i hi).1).cost, ((h.items i hi).1).feasible⟩, (h.items i hi).2⟩,
    h.rows, h.labels, h.inplace, h.cols, h.sorted⟩

theorem ItemFl.congr {i : Info K} (h : ItemFl r dX dN fs i) (h3 : fs'.names = fs.names) (h4 : fs'.x = fs.x)
    (h5 : fs'.coefs = fs.coefs) (h6 : fs'.intercept = fs.intercept) : ItemFl r dX dN fs' i := by
  obtain ⟨aset, names, backend, x, coefs, intercept, builder, items, rows, sortBy, inp⟩ := fs
  obtain ⟨aset', names', backend', x', coefs', intercept', builder', items', rows', sortBy', inp'⟩ := fs'
  dsimp only at h3 h4 h5 h6
  subst h3 h4 h5 h6
  exact ⟨h.act, h.cost, h.feasible⟩

theorem Flipset.InvFl.resort (h : fs.InvFl r dX dN ord) : fs.resort.InvFl r dX dN ord := by
  obtain ⟨h1, h2, h3, h4, h5, h6, h7, h8⟩ := resort_fields fs
  refine ⟨?_, ?_, ?_, ?_, ?_, ?_⟩
  · rw [h1]; exact fun i hi => ⟨(h.items i hi).1.congr h2 h3 h4 h5, (h.items i hi).2⟩
  · rw [h1]
    have : fs.resort.itemRowFl r dX dN 0 = fs.itemRowFl r dX dN 0 := by
      unfold Flipset.resort; split_ifs <;> rfl
    rw [this]
    exact h.rows.trans (h8.map _).symm
  · exact ((h8.map _).trans h.labels).trans (by rw [h8.length_eq])
  · rw [h7]; exact h.inplace
  · intro cols hc; rw [h6]; exact h.cols cols hc
  · intro cols hc
    have hi := h.inplace
    rw [hc] at hi
    have hs : fs.resort.rows = sortRows cols fs.rows := by
      unfold Flipset.resort
      rw [if_pos (by rw [hi]; rfl), h.cols cols hc]
    rw [hs]
    exact sortRows_pairwise _ _

theorem Flipset.InvFl.add {l : List (Info K)} (h : fs.InvFl r dX dN ord)
    (hl : ∀ i ∈ l, i.feasible = true → ∃ c, i.cost = .fin c) (ha : fs.addFl r dX dN l = .ok fs') : fs'.InvFl r dX dN ord := by
  obtain ⟨h1, rfl⟩ := addFl_ok ha
  by_cases he : l.isEmpty = true
  · rw [if_pos he]; exact h
  rw [if_neg he]
  obtain ⟨g1, g2, g3, g4, g5, g6, g7, g8⟩ := resort_fields (fs.appendedFl r dX dN l)
  refine ⟨?_, ?_, ?_, ?_, ?_, ?_⟩
  · rw [g1]
    intro i hi
    rcases List.mem_append.mp hi with hi | hi
    · exact ⟨(h.items i hi).1.congr g2 g3 g4 g5, (h.items i hi).2⟩
    · exact ⟨(h1 i hi).congr g2 g3 g4 g5, hl i hi (h1 i hi).feasible⟩
  · rw [g1]
    have : (fs.appendedFl r dX dN l).resort.itemRowFl r dX dN 0 = fs.itemRowFl r dX dN 0 := by
      unfold Flipset.resort; split_ifs <;> rfl
    rw [this]
    refine List.Perm.trans ?_ (g8.map _).symm
    unfold Flipset.appendedFl
    dsimp only
    rw [relabel_bare, List.map_append, List.map_append]
    refine h.rows.append ?_
    rw [List.map_map]
    exact List.Perm.refl _
  · refine ((g8.map _).trans ?_)
    rw [g8.length_eq]
    unfold Flipset.appendedFl
    dsimp only
    rw [relabel_labels, relabel_length]
  · rw [g7]; exact h.inplace
  · intro cols hc; rw [g6]; exact h.cols cols hc
  · intro cols hc
    have hi := h.inplace
    rw [hc] at hi
    unfold Flipset.resort Flipset.appendedFl
    dsimp only
    rw [if_pos (by rw [hi]; rfl), h.cols cols hc]
    exact sortRows_pairwise _ _

theorem Flipset.UsedFl.inv (h : (mkFlipset be A x w t none).UsedFl r ext o dX dN dB ord fs) : fs.InvFl r dX dN ord := by
  induction h with
  | refl =>
    exact ⟨by simp [mkFlipset], by simp [mkFlipset], by simp [mkFlipset], rfl,
      (fun cols hc => by cases hc; rfl), fun cols _ => by simp [mkFlipset]⟩
  | @populate ord fs fs' fuel total et ct res hr h ih =>
    rcases populateFl_cases h with ⟨er, h1, rfl, -⟩ | ⟨er, c, b0, h1, -, -, -, rfl⟩ | ⟨er, A', b0, h1, -, -, rfl⟩ |
      ⟨er, A', b0, b, infos, h1, -, -, -, rfl⟩ | ⟨A', b0, b, infos, h1, h3, hp, ha⟩
    · exact ih
    · exact ih.congr _ fs.builder
    · exact ih.congr _ _
    · exact ih.congr _ _
    · exact (ih.congr A' (some b)).add (popLoop_fin (populate_ok hp).2.2 (by simp)) ha
  | @sortBy ord fs fs' cols inplace hr h ih =>
    unfold Flipset.sort at h
    by_cases hc : cols.isEmpty = true
    · rw [if_pos hc] at h; cases h
    rw [if_neg hc] at h
    cases h
    cases inplace with
    | false =>
      unfold Flipset.resort
      simp only [Bool.false_eq_true, if_false]
      exact ⟨fun i hi => ⟨(ih.items i hi).1.congr rfl rfl rfl rfl, (ih.items i hi).2⟩, ih.rows, ih.labels, rfl,
        (fun cols hc => by cases hc), fun cols hc => by cases hc⟩
    | true =>
      unfold Flipset.resort
      simp only [if_true]
      have hperm : (sortRows cols fs.rows).Perm fs.rows := List.perm_insertionSort _ _
      refine ⟨fun i hi => ⟨(ih.items i hi).1.congr rfl rfl rfl rfl, (ih.items i hi).2⟩,
        ih.rows.trans (hperm.map _).symm, ((hperm.map _).trans ih.labels).trans ?_, rfl,
        (fun cols hc => by cases hc; rfl), fun cols hc => by cases hc; exact sortRows_pairwise _ _⟩
      dsimp only
      rw [hperm.length_eq]
  | resort hr ih => exact ih.resort
  | flat hr ih => exact ih.resort

/-! ## C109 -/

theorem itemRowFl_describes (hu : r.u < 1) {i : Info K} (h : ItemFl r dX dN fs i) (hN : ∀ a, FlDot r fs.coefs (vaddFl r fs.x a) (dN a)) (l : ℕ) :
    DescribesFl r fs.names fs.x fs.coefs fs.intercept i (fs.itemRowFl r dX dN l i) := by
  obtain ⟨⟨a, h1, h2, h3, h4, h5, -⟩, hc, hf⟩ := h
  refine ⟨⟨a, h1, h2, h3, h4, ?_⟩, rfl, rfl⟩
  unfold Flipset.itemRowFl
  rw [h1]
  dsimp only [Option.getD_some]
  have herr := newError_ok (hN a)
  have e1 : |(fs.intercept + dN a) - (dot fs.coefs (vadd fs.x a) + fs.intercept)| ≤ newError r fs.coefs fs.x a := by
    have : (fs.intercept + dN a) - (dot fs.coefs (vadd fs.x a) + fs.intercept) = dN a - dot fs.coefs (vadd fs.x a) := by ring
    rw [this]; exact herr
  refine ⟨flatnonzero_pairwise a, fun j => mem_flatnonzero, rfl, rfl, ?_, flatnonzero_length a, ?_, rfl, ?_⟩
  · rw [List.forall₂_map_right_iff]
    refine List.forall₂_same.mpr fun j hj => ?_
    have hja := (mem_flatnonzero.mp hj).1
    have hjx : j < fs.x.length := by omega
    have : (vadd fs.x a).getD j 0 = fs.x.getD j 0 + a.getD j 0 := by
      unfold vadd
      rw [List.getD_eq_getElem _ _ hjx, List.getD_eq_getElem _ _ hja,
        List.getD_eq_getElem _ _ (by rw [List.length_zipWith]; omega), List.getElem_zipWith]
    rw [this]
    exact r.near _
  · unfold Flipset.scoreFl
    have h1 := r.near (fs.intercept + dN a)
    set S := dot fs.coefs (vadd fs.x a) + fs.intercept
    set s := fs.intercept + dN a
    have h2 := abs_add_le (r.fl s - s) (s - S)
    rw [sub_add_sub_cancel] at h2
    have h3 := abs_add_le (s - S) S
    rw [sub_add_cancel] at h3
    have h4 := mul_le_mul_of_nonneg_left (h3.trans (add_le_add_left e1 _)) r.nonneg
    linarith
  · intro hm
    unfold Flipset.predictFl Flipset.scoreFl
    rw [sgn_fl hu]
    exact sgn_near e1 hm

/-- What never changes. -/
theorem Flipset.UsedFl.fixed {fs0 : Flipset K} (h : fs0.UsedFl r ext o dX dN dB ord fs) :
    fs.names = fs0.names ∧ fs.x = fs0.x ∧ fs.coefs = fs0.coefs ∧ fs.intercept = fs0.intercept := by
  induction h with
  | refl => exact ⟨rfl, rfl, rfl, rfl⟩
  | @populate ord fs fs' fuel total et ct res hr h ih =>
    rcases populateFl_cases h with ⟨er, h1, rfl, -⟩ | ⟨er, c, b0, h1, -, -, -, rfl⟩ | ⟨er, A', b0, h1, -, -, rfl⟩ |
      ⟨er, A', b0, b, infos, h1, -, -, -, rfl⟩ | ⟨A', b0, b, infos, h1, h3, hp, ha⟩
    · exact ih
    · exact ih
    · exact ih
    · exact ih
    · obtain ⟨-, rfl⟩ := addFl_ok ha
      by_cases hl : infos.isEmpty = true
      · rw [if_pos hl]; exact ih
      · rw [if_neg hl]
        obtain ⟨-, h2, h3, h4, h5, -⟩ := resort_fields (({ fs with aset := A', builder := some b } : Flipset K).appendedFl r dX dN infos)
        exact ⟨h2.trans ih.1, h3.trans ih.2.1, h4.trans ih.2.2.1, h5.trans ih.2.2.2⟩
  | @sortBy ord fs fs' cols inplace hr h ih =>
    unfold Flipset.sort at h
    by_cases hc : cols.isEmpty = true
    · rw [if_pos hc] at h; cases h
    rw [if_neg hc] at h
    cases h
    obtain ⟨-, h2, h3, h4, h5, -⟩ := resort_fields ({ fs with sortBy := cols, sortInplace := inplace } : Flipset K)
    exact ⟨h2.trans ih.1, h3.trans ih.2.1, h4.trans ih.2.2.1, h5.trans ih.2.2.2⟩
  | resort hr ih =>
    rename_i _ fs1
    obtain ⟨-, h2, h3, h4, h5, -⟩ := resort_fields fs1
    exact ⟨h2.trans ih.1, h3.trans ih.2.1, h4.trans ih.2.2.1, h5.trans ih.2.2.2⟩
  | flat hr ih =>
    rename_i _ fs1
    obtain ⟨-, h2, h3, h4, h5, -⟩ := resort_fields fs1
    exact ⟨h2.trans ih.1, h3.trans ih.2.1, h4.trans ih.2.2.1, h5.trans ih.2.2.2⟩

/-- **C109**, the table.  After every history of `populate` (successful or not), `sort` and `to_flat_df` in floating point arithmetic: the rows correspond one to one
to the items and describe them up to rounding; labels are `0, …, n - 1`; `flipped` is `True` everywhere; and the rows are in the order in force. -/
theorem C109_table (hu : r.u < 1) (hN : ∀ a, FlDot r w (vaddFl r x a) (dN a))
    (h : (mkFlipset be A x w t none).UsedFl r ext o dX dN dB ord fs) :
    (∃ rows', rows'.Perm fs.rows ∧ List.Forall₂ (DescribesFl r (A.elems.map (·.name)) x w t) fs.items rows') ∧
    (fs.rows.map (·.label)).Perm (List.range fs.len) ∧ fs.len = fs.rows.length ∧ (∀ row ∈ fs.rows, row.flipped = true) ∧
    ∀ cols, ord = some cols → fs.rows.Pairwise (OrderedBy cols) := by
  have hi := h.inv
  obtain ⟨f1, f2, f3, f4⟩ := h.fixed
  have hlen : fs.len = fs.rows.length := by
    have := hi.rows.length_eq
    rw [List.length_map, List.length_map] at this
    exact this
  have hrow : ∀ row ∈ fs.rows, ∃ i ∈ fs.items, fs.itemRowFl r dX dN 0 i = row.bare := by
    intro row hrow
    have h1 : row.bare ∈ fs.items.map (fs.itemRowFl r dX dN 0) := hi.rows.mem_iff.mpr (List.mem_map_of_mem hrow)
    exact List.mem_map.mp h1
  refine ⟨?_, by rw [hlen]; exact hi.labels, hlen, ?_, ?_⟩
  · have h1 : List.Forall₂ (fun (L q : FlipRow K) => L = q.bare) (fs.rows.map FlipRow.bare) fs.rows := by
      rw [List.forall₂_map_left_iff]
      exact List.forall₂_same.mpr fun _ _ => rfl
    obtain ⟨rows', h2, h3⟩ := List.perm_comp_forall₂ hi.rows h1
    refine ⟨rows', h3, ?_⟩
    rw [List.forall₂_map_left_iff] at h2
    refine List.Forall₂.imp ?_ ((List.forall₂_and_left _ _).mpr ⟨fun i hi' => (hi.items i hi').1, h2⟩)
    rintro i q ⟨hok, he⟩
    have hd := itemRowFl_describes hu hok (by rw [f3, f2]; exact hN) 0
    rw [he, f1, f2, f3, f4] at hd
    exact ⟨hd.ex, hd.cost, hd.feasible⟩
  · intro row hr
    obtain ⟨i, hi', he⟩ := hrow row hr
    obtain ⟨⟨a, h1, h2, h3, h4, h5, h6⟩, -, -⟩ := (hi.items i hi').1
    have : row.flipped = (fs.itemRowFl r dX dN 0 i).flipped := by rw [he]; rfl
    rw [this]
    unfold Flipset.itemRowFl
    rw [h1]
    exact decide_eq_true h6.symm
  · rintro cols rfl
    have hfin : ∀ row ∈ fs.rows, FinCost row := by
      intro row hr
      obtain ⟨i, hi', he⟩ := hrow row hr
      obtain ⟨c, hc⟩ := (hi.items i hi').2
      have : row.bare.cost = i.cost := by rw [← he]; rfl
      exact ⟨c, this.trans hc⟩
    exact (hi.sorted cols rfl).imp_of_mem fun hr hs h => (rowLe_iff (hfin _ hr) (hfin _ hs)).mp h

/-! ## The items -/

theorem SetGrids.of_reachable (h : A.Reachable ext) : SetGrids A :=
  ⟨h.wf.columns, h.wf.names, fun e he => (h.wf.elems e he).inv.2, h.wf.cons⟩

theorem SetGrids.same {A' : ActionSet K} (h : SetGrids A) (hs : SameOffers ext A A') : SetGrids A' := by
  refine ⟨⟨?_, by rw [hs.names]; exact h.columns.distinct⟩, ?_, ?_, ?_⟩
  · rw [← hs.elems.length_eq, hs.names]; exact h.columns.length
  · rw [hs.names, ← h.names]
    have key : ∀ l l' : List (Elem K), List.Forall₂ (Elem.Same ext) l l' → l'.map (·.name) = l.map (·.name) := by
      intro l l' h
      induction h with
      | nil => rfl
      | cons h _ ih => rw [List.map_cons, List.map_cons, ih, h.name]
    exact key _ _ hs.elems
  · intro e' he'
    obtain ⟨j, hj⟩ := List.mem_iff_getElem?.mp he'
    obtain ⟨e, he, hse⟩ := hs.getElem?' hj
    have := h.grids e (List.mem_of_getElem? he)
    exact ⟨by rw [hse.grid]; exact this.ne, by rw [hse.grid]; exact this.sorted, by rw [hse.grid]; exact this.int⟩
  · rw [hs.cons, hs.names]; exact h.cons

theorem SetGrids.builder (ext : Ext K) {ct : CostType} {c : Builder K} (h : SetGrids A) (hm : mkBuilder be ct A w t = .ok c) : AnyGrids c := by
  have hs := (mkBuilder_offers_any (ext := ext) h.columns.length.symm hm).1
  have hg := h.same hs
  obtain ⟨-, h2, -, -, h5, -⟩ := mkBuilder_parts hm
  refine ⟨hg.columns, hg.grids, by rw [h5, hg.names], ?_, hg.cons⟩
  rw [h2, hs.names]
  unfold mkBuilder at hm
  obtain ⟨_, h1, _⟩ := bind_ok_iff.mp hm
  exact (of_decide_eq_true (pyAssert_ok_iff.mp h1)).symm

/-- The builder of a flipset in use. -/
def BuiltFl (r : Rounding K) (ext : Ext K) (o : Oracle K) (dB : K) (A : ActionSet K) (x w : List K) (t : K) (b : Builder K) : Prop :=
  ∃ c b1 : Builder K, AnyGrids c ∧ SameOffers ext A c.aset ∧ c.coefs = w ∧ c.intercept = t ∧
    c.minItems = 0 ∧ c.maxItems = numActionable A ∧ c.setXFl r ext dB x = (b1, .ok ()) ∧ b1.After o b

/-- What holds of a flipset in use. -/
structure Flipset.RunFl (r : Rounding K) (ext : Ext K) (o : Oracle K) (dB : K) (A : ActionSet K) (x w : List K) (t : K) (P : Info K → Prop)
    (fs : Flipset K) : Prop where
  point : fs.x = x
  coefs : fs.coefs = w
  intercept : fs.intercept = t
  offers : SameOffers ext A fs.aset
  builder : ∀ b, fs.builder = some b → BuiltFl r ext o dB A x w t b
  items : ∀ i ∈ fs.items, P i

theorem Flipset.RunFl.resort {P : Info K → Prop} (h : fs.RunFl r ext o dB A x w t P) : fs.resort.RunFl r ext o dB A x w t P := by
  unfold Flipset.resort
  split_ifs
  · exact ⟨h.point, h.coefs, h.intercept, h.offers, h.builder, h.items⟩
  · exact h

theorem Flipset.RunFl.made {P : Info K → Prop} (hg : SetGrids A) (h : fs.RunFl r ext o dB A x w t P) {ct : CostType} {A' : ActionSet K} {b0 : Builder K}
    (hm : fs.MadeFl r ext dB ct A' b0) : BuiltFl r ext o dB A x w t b0 ∧ SameOffers ext A A' := by
  rcases hm with ⟨h1, rfl⟩ | ⟨h1, c, h2, h3, rfl⟩
  · exact ⟨h.builder b0 h1, h.offers⟩
  · have hgs := hg.same h.offers
    obtain ⟨g1, g2, g3, g4, g5, g6, g7⟩ := mkBuilder_offers_any (ext := ext) hgs.columns.length.symm h2
    have hcg := hgs.builder ext h2
    rw [h.point] at h3
    have ho := h.offers.trans g1
    have hset := SameSetup.setXFl (r := r) (ext := ext) hcg.columns.length dB x
    rw [h3] at hset
    refine ⟨⟨c, b0, hcg, ho, g2.trans h.coefs, g3.trans h.intercept, g6, by rw [g7, h.offers.numActionable], h3, .refl⟩, ?_⟩
    obtain ⟨feats, m, -, -, -, rfl⟩ := setXFl_ok h3
    exact ho.trans (SameOffers.touch hcg.columns.length.symm true)

theorem Flipset.UsedFl.run {P : Info K → Prop} (hg : SetGrids A)
    (hP : ∀ (b b' : Builder K) (et : EnumType) (fuel : ℕ) (total : Option ℕ) (l : List (Info K)), BuiltFl r ext o dB A x w t b →
      b.populate o et fuel total = .ok (some (b', l)) → ∀ i ∈ l, P i)
    (h : (mkFlipset be A x w t none).UsedFl r ext o dX dN dB ord fs) : fs.RunFl r ext o dB A x w t P := by
  induction h with
  | refl => exact ⟨rfl, rfl, rfl, SameOffers.refl A, (fun b hb => by cases hb), fun i hi => by cases hi⟩
  | @populate ord fs fs' fuel total et ct res hr h ih =>
    have chg : ∀ (A' : ActionSet K) (b : Builder K), SameOffers ext A A' → BuiltFl r ext o dB A x w t b →
        ({ fs with aset := A', builder := some b } : Flipset K).RunFl r ext o dB A x w t P := by
      intro A' b g2 g3
      exact ⟨ih.point, ih.coefs, ih.intercept, g2, (fun b' hb => by cases hb; exact g3), ih.items⟩
    have nxt : ∀ (b0 b : Builder K) (infos : List (Info K)), BuiltFl r ext o dB A x w t b0 → b0.populate o et fuel total = .ok (some (b, infos)) →
        BuiltFl r ext o dB A x w t b := by
      rintro b0 b infos ⟨c, b1, h1, h2, h3, h4, h5, h6, h7, h8⟩ hp
      exact ⟨c, b1, h1, h2, h3, h4, h5, h6, h7, .populate h8 hp⟩
    rcases populateFl_cases h with ⟨er, h1, rfl, -⟩ | ⟨er, c, b0, h1, hn, h2, h3, rfl⟩ | ⟨er, A', b0, h1, hm, -, rfl⟩ |
      ⟨er, A', b0, b, infos, h1, hm, hp, -, rfl⟩ | ⟨A', b0, b, infos, h1, hm, hp, ha⟩
    · exact ih
    · refine ⟨ih.point, ih.coefs, ih.intercept, ?_, ih.builder, ih.items⟩
      have hgs := hg.same ih.offers
      have g1 := (mkBuilder_offers_any (ext := ext) hgs.columns.length.symm h2).1
      have hcg := hgs.builder ext h2
      have : SameOffers ext c.aset b0.aset := by
        rcases setXFl_cases r ext c dB fs.x with ⟨-, h⟩ | ⟨-, er, -, h⟩ | ⟨-, f, er, -, -, h⟩ | ⟨-, f, m, -, -, h⟩ <;>
          rw [h3, Prod.mk.injEq] at h <;> rw [h.1]
        · exact SameOffers.refl _
        · exact SameOffers.visit _ _
        · exact SameOffers.touch hcg.columns.length.symm true
        · exact SameOffers.touch hcg.columns.length.symm true
      exact (ih.offers.trans g1).trans this
    · obtain ⟨g1, g2⟩ := ih.made hg hm
      exact chg A' b0 g2 g1
    · obtain ⟨g1, g2⟩ := ih.made hg hm
      exact chg A' b g2 (nxt _ _ _ g1 hp)
    · obtain ⟨g1, g2⟩ := ih.made hg hm
      have hc := chg A' b g2 (nxt _ _ _ g1 hp)
      obtain ⟨-, rfl⟩ := addFl_ok ha
      by_cases hl : infos.isEmpty = true
      · rw [if_pos hl]; exact hc
      · rw [if_neg hl]
        apply Flipset.RunFl.resort
        refine ⟨hc.point, hc.coefs, hc.intercept, hc.offers, hc.builder, ?_⟩
        intro i hi
        rcases List.mem_append.mp hi with hi | hi
        · exact ih.items i hi
        · exact hP _ _ _ _ _ _ g1 hp i hi
  | @sortBy ord fs fs' cols inplace hr h ih =>
    unfold Flipset.sort at h
    by_cases hc : cols.isEmpty = true
    · rw [if_pos hc] at h; cases h
    rw [if_neg hc] at h
    cases h
    apply Flipset.RunFl.resort
    exact ⟨ih.point, ih.coefs, ih.intercept, ih.offers, ih.builder, ih.items⟩
  | resort hr ih => exact ih.resort
  | flat hr ih => exact ih.resort

/-- **C109**, the items: each is close to a permitted action that changes at least one feature, and misses the desired score by at most the tolerance of the solver and the rounding error
of the score of `x`. -/
theorem C109_items (hso : SetOrderOk ext) (hu : r.u < 1) {ε δ : K} (ho : o.SoundUpTo ε δ) (hε : 0 ≤ ε) (hδ : 0 ≤ δ) (hg : SetGrids A)
    (hd : FlDot r w x dB) {N : ℕ} {R : K} (hN : GridSizes N A) (hR : ChangesWithin R A x) (ht : (N : K) * δ + ε < 1)
    (h : (mkFlipset be A x w t none).UsedFl r ext o dX dN dB ord fs) :
    ∀ i ∈ fs.items, i.feasible = true ∧ ∃ a a', i.actions = some a ∧
      NearAllowed (ε + ((1 + r.u) * dotError r w x + r.u * |dot w x + t|)) (ε + (N : K) * δ * ((1 + r.u) * R) + r.u * R) A w t x a a' 1 (numActionable A) := by
  refine (h.run (P := fun i => i.feasible = true ∧ ∃ a a', i.actions = some a ∧
      NearAllowed (ε + ((1 + r.u) * dotError r w x + r.u * |dot w x + t|)) (ε + (N : K) * δ * ((1 + r.u) * R) + r.u * R) A w t x a a' 1 (numActionable A)) hg ?_).items
  rintro b b' et fuel total l ⟨c, b1, h1, h2, rfl, rfl, h5, h6, h7, h8⟩ hp i hi
  have hN' : GridSizes N c.aset := by
    refine ⟨by rw [h2.names]; exact hN.1, fun e' he' => ?_⟩
    obtain ⟨j, hj⟩ := List.mem_iff_getElem?.mp he'
    obtain ⟨e, he, hse⟩ := h2.getElem?' hj
    rw [hse.grid]; exact hN.2 e (List.mem_of_getElem? he)
  have hR' : ChangesWithin R c.aset x := by
    refine ⟨hR.1, fun j e' xj v he' hx hv => ?_⟩
    obtain ⟨e, he, hse⟩ := h2.getElem?' he'
    exact hR.2 j e xj v he hx ((hse.permitted _ _).mp hv)
  obtain ⟨g1, a, a', g2, g3, -⟩ := C105_items hso hu ho hε hδ h1 hd h7 h8 hp hN' hR' ht i hi
  refine ⟨g1, a, a', g2, ?_, g3.near, h2.permittedAction.mp g3.permitted, ?_, ?_⟩
  · have := g3.score
    rw [h2.y] at this
    exact this
  · have := g3.min; rw [h5] at this; simpa using this
  · have := g3.max; rw [h6] at this; exact this

/-- **C109**, link: without rounding, `populate` is the one all other properties speak about. -/
theorem C109_exact (ext : Ext K) (o : Oracle K) (fs : Flipset K) (hX : FlDot .exact fs.coefs fs.x dX) (hB : FlDot .exact fs.coefs fs.x dB)
    (hN : ∀ a, FlDot .exact fs.coefs (vaddFl .exact fs.x a) (dN a)) (fuel : ℕ) (total : Option ℕ) (et : EnumType) (ct : CostType) :
    fs.populateFl .exact ext o dX dN dB fuel total et ct = fs.populate ext o fuel total et ct := by
  have hex : ∀ (v : List K) (d : K), FlDot .exact fs.coefs v d → d = dot fs.coefs v := by
    intro v d hv
    have := hv.error
    unfold dotError at this
    simp only [Rounding.exact, add_zero, one_pow, sub_self, zero_mul] at this
    exact sub_eq_zero.mp (abs_nonpos_iff.mp this)
  have eX := hex _ _ hX
  have eN : ∀ a, dN a = dot fs.coefs (vadd fs.x a) := fun a => hex _ _ (hN a)
  have hadd : ∀ (A' : ActionSet K) (b : Option (Builder K)) (l : List (Info K)),
      ({ fs with aset := A', builder := b } : Flipset K).addFl .exact dX dN l = ({ fs with aset := A', builder := b } : Flipset K).add l := by
    intro A' b l
    have hv : ({ fs with aset := A', builder := b } : Flipset K).validateItemFl .exact dX dN = ({ fs with aset := A', builder := b } : Flipset K).validateItem := by
      funext i
      unfold Flipset.validateItemFl Flipset.validateItem
      have : ({ fs with aset := A', builder := b } : Flipset K).validateActionFl .exact dX dN i.actions
          = ({ fs with aset := A', builder := b } : Flipset K).validateAction i.actions := by
        cases i.actions with
        | none => rfl
        | some a =>
          unfold Flipset.validateActionFl Flipset.validateAction Flipset.yhatFl Flipset.predictFl Flipset.scoreFl Flipset.yhat Flipset.predict Flipset.score
          dsimp only
          rw [eX, eN]
          rfl
      rw [this]
    have hrow : ({ fs with aset := A', builder := b } : Flipset K).itemRowFl .exact dX dN = ({ fs with aset := A', builder := b } : Flipset K).itemRow := by
      funext l i
      unfold Flipset.itemRowFl Flipset.itemRow Flipset.yhatFl Flipset.predictFl Flipset.scoreFl Flipset.yhat Flipset.predict Flipset.score
      dsimp only
      rw [eX, eN]
      rfl
    unfold Flipset.addFl Flipset.add
    rw [hv, hrow]
  have hset : ∀ b : Builder K, b.coefs = fs.coefs → b.setXFl .exact ext dB fs.x = b.setX ext fs.x := fun b hb => C105_exact ext b fs.x (by rw [hb]; exact hB)
  unfold Flipset.populateFl Flipset.populate
  cases hb : fs.builder with
  | some b =>
    dsimp only
    cases b.populate o et fuel total with
    | error er => rfl
    | ok q =>
      cases q with
      | none => rfl
      | some q =>
        dsimp only
        have := hadd fs.aset (some q.1) q.2
        change ({ fs with builder := some q.1 } : Flipset K).addFl .exact dX dN q.2 = ({ fs with builder := some q.1 } : Flipset K).add q.2 at this
        rw [this]
        rfl
  | none =>
    dsimp only
    cases hm : mkBuilder fs.backend ct fs.aset fs.coefs fs.intercept with
    | error er => rfl
    | ok c =>
      dsimp only
      rw [hset c (mkBuilder_parts hm).2.1]
      cases hx : c.setX ext fs.x with
      | mk b0 res =>
        cases res with
        | error er => rfl
        | ok u =>
          dsimp only
          cases b0.populate o et fuel total with
          | error er => rfl
          | ok q =>
            cases q with
            | none => rfl
            | some q =>
              dsimp only
              have := hadd b0.aset (some q.1) q.2
              rw [this]
              rfl

/-! ## Success -/

theorem BuiltFl.posed (hso : SetOrderOk ext) (hu : r.u < 1) (ho : o.Sound) {b : Builder K} (h : BuiltFl r ext o dB A x w t b) :
    ∃ (be : Backend) (p : BuildArgs K) (Q : (ℕ → ℕ) → Prop), x.length = A.names.length ∧ w.length = A.names.length ∧ FeatsOK w.length p.feats ∧
      Posed w.length be p Q b := by
  obtain ⟨c, b1, h1, h2, rfl, h4, h5, h6, h7, h8⟩ := h
  obtain ⟨feats, m, hxl, hbi, hm, rfl⟩ := setXFl_ok h7
  have hok := buildInfoFl_ok hso hu h1 hbi
  have hp : Posed c.coefs.length c.backend { c.buildArgs x feats with score := c.scoreFl r dB } (fun _ => True)
      ({ c with x := some x, aset := c.aset.touch ext true, mip := some m, feats := feats, sol := .unknown } : Builder K) :=
    ⟨⟨m, rfl, CutOf.base hm hok, DeclsOK.base hm hok⟩, rfl, rfl, rfl, rfl⟩
  obtain ⟨Q, -, hq⟩ := hp.after hok ho h8
  have hl : c.coefs.length = A.names.length := by rw [h1.coefs, h2.names]
  exact ⟨c.backend, _, Q, hxl.trans hl, hl, hok, hq⟩

/-- **C109**, success: `populate` in floating point arithmetic does not raise, once the builder could be set up, if the computed score of `x` is none of the numbers
−1, 0 and 1 (with which it is compared by mistake), and it ends. -/
theorem C109_populate (hso : SetOrderOk ext) (hu : r.u < 1) (ho : o.Sound) (hg : SetGrids A)
    (hy : ∀ z : Int, z = -1 ∨ z = 0 ∨ z = 1 → r.fl (t + dX) ≠ (z : K))
    (h : (mkFlipset be A x w t none).UsedFl r ext o dX dN dB ord fs) {ct : CostType}
    (hb : (∃ b, fs.builder = some b) ∨ ∃ c b1, mkBuilder fs.backend ct fs.aset w t = .ok c ∧ c.setXFl r ext dB x = (b1, .ok ()))
    (et : EnumType) (total : Option ℕ) (htot : ∀ k, total = some k → 1 ≤ k) :
    ∃ fs', ∀ fuel, maxEnum et A.names.length < fuel → fs.populateFl r ext o dX dN dB fuel total et ct = some (fs', .ok ()) := by
  have hrun := h.run (P := fun _ => True) hg (fun _ _ _ _ _ _ _ _ _ _ => trivial)
  have hfix := h.fixed
  have hmade : ∃ A' b0, fs.MadeFl r ext dB ct A' b0 := by
    cases hbb : fs.builder with
    | some b => exact ⟨fs.aset, b, Or.inl ⟨hbb, rfl⟩⟩
    | none =>
      rcases hb with ⟨b, hb⟩ | ⟨c, b1, h1, h2⟩
      · rw [hbb] at hb; cases hb
      · refine ⟨b1.aset, b1, Or.inr ⟨hbb, c, ?_, ?_, rfl⟩⟩
        · rw [hrun.coefs, hrun.intercept]; exact h1
        · rw [hrun.point]; exact h2
  obtain ⟨A', b0, hm⟩ := hmade
  obtain ⟨hbf, -⟩ := hrun.made hg hm
  obtain ⟨be', p, Q, hxl, hwl, hok, hq⟩ := hbf.posed hso hu ho
  have hnames : fs.names.length = A.names.length := by rw [hfix.1, ← hg.names]; rfl
  have hfl : p.feats.length ≤ A.names.length := by
    have hsub : (p.feats.map (·.idx)) ⊆ List.range w.length := by
      intro j hj
      obtain ⟨f, hf, rfl⟩ := List.mem_map.mp hj
      exact List.mem_range.mpr (hok.lt f hf)
    have := (List.subperm_of_subset hok.nodup hsub).length_le
    rw [← hwl]
    simpa using this
  have hbound : ∀ {ex : Prop} {P : (ℕ → ℕ) → Prop} {tr : List ((ℕ → ℕ) × Info K)}, Trace w.length be' et p ex P tr → tr.length ≤ maxEnum et A.names.length := by
    intro ex P tr ht
    cases et with
    | distinctSubsets => exact le_trans ht.length_distinct (Nat.pow_le_pow_right (by norm_num) hfl)
    | mutuallyExclusive => exact le_trans ht.length_mutex hfl
  obtain ⟨m, hmip, -⟩ := hq.mip
  have hpop : ∀ fuel, b0.populate o et fuel total = .ok (b0.popLoop o et fuel total []) := by
    intro fuel
    unfold Builder.populate
    rw [hmip]
    cases total with
    | none => rfl
    | some k =>
      have := htot k rfl
      simp only [Option.isNone_some, Bool.false_eq_true, if_false, decide_eq_true this]
      rfl
  obtain ⟨b', l, hl⟩ : ∃ b' l, b0.popLoop o et (maxEnum et A.names.length + 1) total [] = some (b', l) := by
    cases hl : b0.popLoop o et (maxEnum et A.names.length + 1) total [] with
    | none =>
      obtain ⟨tr, hlen, htr⟩ := hq.popLoop_none hok ho hl
      have := hbound htr
      omega
    | some q => exact ⟨q.1, q.2, rfl⟩
  obtain ⟨tr, hlt, htr, -⟩ := hq.popLoop hok ho hl
  rw [List.nil_append] at hlt
  have hitems : ∀ i ∈ l, ItemFl r dX dN ({ fs with aset := A', builder := some b' } : Flipset K) i := by
    intro i hi
    rw [hlt] at hi
    obtain ⟨q, hq', rfl⟩ := List.mem_map.mp hi
    obtain ⟨k1, -, k3⟩ := htr.mem q hq'
    refine ⟨⟨actVec w.length p.feats q.1, k3.actions, ?_, ?_, ?_, ?_, ?_⟩, k3.cost_pos hok k1, k3.feasible⟩
    · rw [actVec_length, hwl]; exact hnames.symm
    · show fs.x.length = fs.names.length
      rw [hrun.point, hxl, hnames]
    · show fs.coefs.length = fs.names.length
      rw [hrun.coefs, hwl, hnames]
    · rw [flatnonzero_length]
      unfold numChanged
      rw [actVec_countP hok k1.lt]
      exact le_trans (le_max_right _ _) k1.lo
    · unfold Flipset.yhatFl Flipset.predictFl
      show r.fl (fs.intercept + dX) ≠ _
      rw [hrun.intercept]
      refine hy _ ?_
      unfold sgn
      split_ifs <;> simp
  obtain ⟨fs2, hadd⟩ := addFl_runs hitems
  refine ⟨fs2, fun fuel hf => ?_⟩
  have hp : b0.populate o et fuel total = .ok (some (b', l)) := by rw [hpop, popLoop_mono hl (by omega)]
  unfold Flipset.populateFl
  rcases hm with ⟨m1, rfl⟩ | ⟨m1, c', m2, m3, rfl⟩
  · simp only [m1, hp]
    have : ({ fs with builder := some b' } : Flipset K) = { fs with aset := fs.aset, builder := some b' } := rfl
    rw [← this] at hadd
    simp only [hadd]
  · simp only [m1, m2, m3, hp, hadd]

/-- **C109**, completeness: with a solver that finishes, if `populate` succeeds on a new flipset and stores nothing, then no permitted action within the limits reaches the desired side of the
score with a margin of the rounding errors, at a point that is denied, with directions aligned to the classifier and room for rounding.  (`c` is the builder that the flipset creates.) -/
theorem C109_found (hso : SetOrderOk ext) (hu : r.u < 1) (hlog : LogOk ext) (ho : o.Complete) (hg : SetGrids A) {ct : CostType} {c : Builder K}
    (hc : mkBuilder be ct A w t = .ok c) (hd : FlDot r w x dB) (hy : A.yDesired = 1 ∨ A.yDesired = -1)
    {fuel : ℕ} {total : Option ℕ} {et : EnumType} (h : (mkFlipset be A x w t none).populateFl r ext o dX dN dB fuel total et ct = some (fs, .ok ()))
    (hnil : fs.items = []) {R : K} (hR : ChangesWithin R A x) (hroom : RoomToRound ext r c x) (hla : LimitsApply c.aset x) (hz : KnowsZero r c.aset x)
    (hden : Denied c x) (hal : ∀ (j : ℕ) (e : Elem K) (v : K), c.aset.elems[j]? = some e → c.coefs[j]? = some v → v ≠ 0 → AgreesWith c.aset.yDesired v e) :
    ¬ ∃ a, ClearRecourse ((1 + r.u) * dotError r w x + r.u * |dot w x + t| + coefSize w * (r.u * R)) A w t x a (numActionable A) := by
  rintro ⟨a, ha⟩
  obtain ⟨g1, rfl, rfl, g4, g5, g6, g7⟩ := mkBuilder_offers_any (ext := ext) hg.columns.length.symm hc
  have hcg := hg.builder ext hc
  rcases populateFl_cases h with ⟨er, h1, -⟩ | ⟨er, c, b0, h1, -⟩ | ⟨er, A', b0, h1, -⟩ |
      ⟨er, A', b0, b, infos, h1, -⟩ | ⟨A', b0, b, infos, -, hm, hp, hadd⟩
  · cases h1
  · cases h1
  · cases h1
  · cases h1
  · have hinf : infos = [] := by
      obtain ⟨-, rfl⟩ := addFl_ok hadd
      by_cases hl : infos.isEmpty = true
      · exact List.isEmpty_iff.mp hl
      · rw [if_neg hl, (resort_fields _).1] at hnil
        exact (List.append_eq_nil_iff.mp hnil).2
    obtain ⟨i, hf, hi⟩ := populate_head hp
    have hfalse : i.feasible = false := by
      rcases hi with ⟨-, h⟩ | ⟨l', h, -⟩
      · exact h
      · rw [hinf] at h; cases h
    rcases hm with ⟨h1, -⟩ | ⟨-, c', h2, h3, -⟩
    · cases h1
    · have h2' : mkBuilder be ct A c.coefs c.intercept = .ok c' := h2
      rw [hc] at h2'
      cases h2'
      have hR' : ChangesWithin R c.aset x := by
        refine ⟨hR.1, fun j e' xj v he' hx hv => ?_⟩
        obtain ⟨e, he, hse⟩ := g1.getElem?' he'
        exact hR.2 j e xj v he hx ((hse.permitted _ _).mp hv)
      have hla' : RespectsLimits c.aset x a ↔ RespectsLimits A x a := by
        unfold RespectsLimits numNonzero; rw [g1.cons, g1.names]
      have := C105_found hso hu hlog ho hcg (by rw [g1.y]; exact hy) hd h3 .refl hf hR' hroom hla hz (by rw [g6]; omega) hden hal (a := a)
        ⟨g1.permittedAction.mpr ha.permitted, hla'.mpr ha.limits, by rw [g7]; exact ha.max, by
          have := ha.score
          rw [← g1.y] at this
          exact this⟩
      rw [hfalse] at this
      cases this

end Recourse
