import Verif.Props.Assign

/-!
# Lemmas about audits
-/

set_option linter.unusedSectionVars false

namespace Recourse

variable {K : Type} [Field K] [LinearOrder K] [IsStrictOrderedRing K] [FloorRing K]
  {ext : Ext K} {o : Oracle K} {b0 b b' : Builder K} {ad ad' : Auditor K} {x : List K} {y : Int}

theorem Oracle.Sound.at (h : o.Sound) (n : ℕ) : (o.at n).Sound := fun _ m => h n m

theorem Oracle.Complete.at (h : o.Complete) (n : ℕ) : (o.at n).Complete := fun _ m => h n m

theorem Oracle.Exact.at (h : o.Exact) (n : ℕ) : (o.at n).Exact := ⟨h.1.at n, h.2.at n⟩

theorem Oracle.Steady.at (h : o.Steady) (n : ℕ) : o.at n = o := by
  funext k m; exact h n k m

/-- After a successful assignment there is a program; what else is then known. -/
theorem setX_mip {c : Builder K} (hc : (c.setX ext x).2 = .ok ()) : ∃ m, (c.setX ext x).1.mip = some m ∧
    (c.setX ext x).1.backend = c.backend ∧ (c.setX ext x).1.coefs = c.coefs ∧
    (c.setX ext x).1.costType = c.costType := by
  rcases setX_cases ext c x with ⟨-, h2⟩ | ⟨-, er, -, h3⟩ | ⟨-, f, er, -, -, h4⟩ | ⟨-, f, m, -, -, h4⟩
  · rw [h2] at hc; cases hc
  · rw [h3] at hc; cases hc
  · rw [h4] at hc; cases hc
  · rw [h4]; exact ⟨m, rfl, rfl, rfl, rfl⟩

/-- An entry of an audit: what `fit()` reports at `x` on the builder as it was before the audit. -/
def Entry (ext : Ext K) (o : Oracle K) (b0 : Builder K) (x : List K) (row : AuditRow K) : Prop :=
  ∃ (n : ℕ) (b1 b' : Builder K) (i : Info K), b0.setX ext x = (b1, .ok ()) ∧ b1.fit (o.at n) = .ok (b', i) ∧
    row = ⟨some i.feasible, i.cost⟩

/-- Assigning `x` and fitting on a used builder is the same as on the unused one. -/
theorem Builder.Used.entry (hr : b0.Reachable ext) (hu : b0.Used ext b) {b1 b2 : Builder K} {i : Info K}
    (hx : b.setX ext x = (b1, .ok ())) (hf : b1.fit o = .ok (b2, i)) : Entry ext o b0 x i.row := by
  obtain ⟨h1, h2⟩ := C33_fresh (x := x) hr hu
  have hok : (b0.setX ext x).2 = .ok () := by rw [← h1, hx]
  obtain ⟨-, h4⟩ := h2 hok
  obtain ⟨m, g1, -⟩ := setX_mip hok
  have e1 : b1 = (b.setX ext x).1 := by rw [hx]
  have hf0 : ∃ b3 i0, (b0.setX ext x).1.fit (o.at b1.clock) = .ok (b3, i0) := by
    unfold Builder.fit; rw [g1]; exact ⟨_, _, rfl⟩
  obtain ⟨b3, i0, hf0⟩ := hf0
  have hf1 : (b.setX ext x).1.fit (o.at b1.clock) = .ok (b2, i) := by
    rw [← e1, ← hf]
    unfold Builder.fit
    cases hm : b1.mip with
    | none => rfl
    | some m =>
      have : b1.solve (o.at b1.clock) = b1.solve o := by unfold Builder.solve Oracle.at; rfl
      rw [this]
  have := h4 (o.at b1.clock) (fun _ _ _ => rfl) _ _ hf1 hf0
  refine ⟨b1.clock, _, b3, i0, Prod.ext rfl hok, hf0, ?_⟩
  dsimp only at this
  rw [this]; rfl

theorem auditLoop_spec (hr : b0.Reachable ext) {sel : List (ℕ × List K)} (hu : b0.Used ext b) :
    (∀ {out : List (ℕ × AuditRow K)}, auditLoop ext o b sel = (b', .ok out) →
      b0.Used ext b' ∧ out.map (·.1) = sel.map (·.1) ∧
      ∀ (k : ℕ) (p : ℕ × List K) (q : ℕ × AuditRow K), sel[k]? = some p → out[k]? = some q →
        Entry ext o b0 p.2 q.2) ∧
    (∀ {er : Err}, auditLoop ext o b sel = (b', .error er) →
      b0.Used ext b' ∧ ∃ p ∈ sel, (b0.setX ext p.2).2 = .error er) := by
  induction sel generalizing b with
  | nil =>
    refine ⟨fun h => ?_, fun h => ?_⟩
    · unfold auditLoop at h; cases h
      exact ⟨hu, rfl, fun k p q hp => by simp at hp⟩
    · unfold auditLoop at h; cases h
  | cons p sel ih =>
    obtain ⟨j, r⟩ := p
    unfold auditLoop
    have hu1 : b0.Used ext (b.setX ext r).1 := .setX r hu
    have hfresh := (C33_fresh (x := r) hr hu).1
    cases hx : b.setX ext r with
    | mk b1 res =>
      rw [hx] at hu1 hfresh
      dsimp only at hu1 hfresh ⊢
      cases res with
      | error er =>
        dsimp only
        refine ⟨fun h => (by cases h), fun h => ?_⟩
        cases h
        exact ⟨hu1, (j, r), by simp, hfresh.symm⟩
      | ok _ =>
        dsimp only
        obtain ⟨m, hm, -⟩ := setX_mip (c := b) (x := r) (ext := ext) (by rw [hx])
        rw [hx] at hm
        dsimp only at hm
        cases hf : b1.fit o with
        | error er => unfold Builder.fit at hf; rw [hm] at hf; cases hf
        | ok pr =>
          obtain ⟨b2, i⟩ := pr
          dsimp only
          have hent : Entry ext o b0 r i.row := hu.entry hr hx hf
          have hu2 : b0.Used ext b2 := .fit hu1 hf
          obtain ⟨ih1, ih2⟩ := ih hu2
          cases hl : auditLoop ext o b2 sel with
          | mk b3 res =>
            cases res with
            | error er =>
              dsimp only
              refine ⟨fun h => (by cases h), fun h => ?_⟩
              cases h
              obtain ⟨g1, p, hp, g2⟩ := ih2 hl
              exact ⟨g1, p, List.mem_cons_of_mem _ hp, g2⟩
            | ok out' =>
              dsimp only
              refine ⟨fun h => ?_, fun h => by cases h⟩
              cases h
              obtain ⟨g1, g2, g3⟩ := ih1 hl
              refine ⟨g1, by simp [g2], fun k p q hp hq => ?_⟩
              cases k with
              | zero => simp at hp hq; subst hp hq; exact hent
              | succ k => exact g3 k p q (by simpa using hp) (by simpa using hq)

theorem mem_uniqueRows {X : List (List K)} {r : List K} : r ∈ uniqueRows X ↔ r ∈ X := by
  unfold uniqueRows
  rw [List.mem_insertionSort, List.mem_dedup]

theorem nodup_uniqueRows (X : List (List K)) : (uniqueRows X).Nodup := by
  unfold uniqueRows
  exact (List.perm_insertionSort _ _).nodup_iff.mpr (List.nodup_dedup X)

/-- Looking up an index in a list of pairs with distinct first components. -/
theorem lookup_of_getElem? {β : Type} {l : List (ℕ × β)} (hn : (l.map (·.1)).Nodup) {k : ℕ} {p : ℕ × β}
    (h : l[k]? = some p) : l.lookup p.1 = some p.2 := by
  induction l generalizing k with
  | nil => simp at h
  | cons q l ih =>
    rw [List.map_cons, List.nodup_cons] at hn
    rw [List.lookup_cons]
    cases k with
    | zero => simp at h; subst h; simp
    | succ k =>
      have hk : l[k]? = some p := by simpa using h
      have : p.1 ≠ q.1 := by
        intro he
        exact hn.1 (he ▸ List.mem_map_of_mem (List.mem_of_getElem? hk))
      have hb : (p.1 == q.1) = false := by simpa using this
      rw [hb]
      exact ih hn.2 hk

theorem lookup_none {β : Type} {l : List (ℕ × β)} {k : ℕ} (h : k ∉ l.map (·.1)) : l.lookup k = none := by
  induction l with
  | nil => rfl
  | cons q l ih =>
    rw [List.map_cons, List.mem_cons, not_or] at h
    rw [List.lookup_cons]
    have hb : (k == q.1) = false := by simpa using h.1
    rw [hb]
    exact ih h.2

/-- The indices and rows that are audited. -/
def selRows (U : List (List K)) (P : List K → Bool) : List (ℕ × List K) :=
  U.zipIdx.filterMap fun p => if P p.1 then some (p.2, p.1) else none

theorem mem_selRows {U : List (List K)} {P : List K → Bool} {q : ℕ × List K} :
    q ∈ selRows U P ↔ U[q.1]? = some q.2 ∧ P q.2 = true := by
  unfold selRows
  rw [List.mem_filterMap]
  constructor
  · rintro ⟨⟨r, i⟩, h1, h2⟩
    dsimp only at h2
    by_cases hP : P r = true
    · rw [if_pos hP] at h2
      cases h2
      exact ⟨List.mem_zipIdx_iff_getElem?.mp h1, hP⟩
    · rw [if_neg hP] at h2; cases h2
  · rintro ⟨h1, h2⟩
    refine ⟨(q.2, q.1), List.mem_zipIdx_iff_getElem?.mpr h1, ?_⟩
    dsimp only
    rw [if_pos h2]

theorem nodup_selRows (U : List (List K)) (P : List K → Bool) : ((selRows U P).map (·.1)).Nodup := by
  have h : (selRows U P).map (·.1) = (U.zipIdx.filter fun p => P p.1).map (·.2) := by
    unfold selRows
    rw [List.map_filterMap]
    induction U.zipIdx with
    | nil => rfl
    | cons a l ih =>
      rw [List.filterMap_cons, List.filter_cons]
      by_cases hP : P a.1 = true
      · simp only [hP, if_true, Option.map_some, List.map_cons]; rw [ih]
      · simp only [hP, Bool.false_eq_true, if_false, Option.map_none]; rw [ih]
  rw [h]
  have hs : ((U.zipIdx.filter fun p => P p.1).map (·.2)).Sublist (U.zipIdx.map (·.2)) :=
    List.filter_sublist.map _
  refine hs.nodup ?_
  rw [List.zipIdx_map_snd]
  exact List.nodup_range'

/-- A successful audit. -/
theorem audit_ok {ι : Type} {X : List (ι × List K)} {T : List (ι × AuditRow K)}
    (hr : ad.builder.Reachable ext) (h : ad.audit ext o X y = (ad', .ok T)) :
    (∀ p ∈ X, p.2.length = ad.coefs.length) ∧ (y = 1 ∨ y = -1 ∨ y = 0) ∧
    (∃ p ∈ X, ad.selected y p.2 = true) ∧ ad.builder.Used ext ad'.builder ∧
    ad' = { ad with builder := ad'.builder } ∧
    ∃ g : List K → AuditRow K, T = X.map (fun p => (p.1, g p.2)) ∧
      ∀ p ∈ X, (ad.selected y p.2 = false → g p.2 = ⟨none, .nan⟩) ∧
        (ad.selected y p.2 = true → Entry ext o ad.builder p.2 (g p.2)) := by
  unfold Auditor.audit at h
  by_cases h0 : X.isEmpty = true
  · rw [if_pos h0] at h; cases h
  rw [if_neg h0] at h
  by_cases h1 : (X.any fun r => decide (r.2.length ≠ ad.coefs.length)) = true
  · rw [if_pos h1] at h; cases h
  rw [if_neg h1] at h
  by_cases h2 : ¬ (y = 1 ∨ y = -1 ∨ y = 0)
  · rw [if_pos h2] at h; cases h
  rw [if_neg h2] at h
  dsimp only at h
  change (match auditLoop ext o ad.builder (selRows (uniqueRows (X.map (·.2))) (ad.selected y)) with
    | (b, .error er) => _ | (b, .ok out) => _) = _ at h
  cases hl : auditLoop ext o ad.builder (selRows (uniqueRows (X.map (·.2))) (ad.selected y)) with
  | mk b res =>
    rw [hl] at h
    cases res with
    | error er => cases h
    | ok out =>
      dsimp only at h
      obtain ⟨g1, g2, g3⟩ := (auditLoop_spec hr .refl).1 hl
      by_cases h3 : out.isEmpty = true
      · rw [if_pos h3] at h; cases h
      rw [if_neg h3] at h
      cases h
      have hsel : ∃ p ∈ X, ad.selected y p.2 = true := by
        cases hs : selRows (uniqueRows (X.map (·.2))) (ad.selected y) with
        | nil => rw [hs] at g2; simp at g2; subst g2; simp at h3
        | cons q s =>
          have hq : q ∈ selRows (uniqueRows (X.map (·.2))) (ad.selected y) := by rw [hs]; simp
          obtain ⟨e1, e2⟩ := mem_selRows.mp hq
          have := mem_uniqueRows.mp (List.mem_of_getElem? e1)
          obtain ⟨p, hp, he⟩ := List.mem_map.mp this
          exact ⟨p, hp, by rw [he]; exact e2⟩
      refine ⟨?_, not_not.mp h2, hsel, g1, rfl, fun r => (out.lookup ((uniqueRows (X.map (·.2))).idxOf r)).getD ⟨none, .nan⟩, rfl, ?_⟩
      · intro p hp
        by_contra hne
        exact h1 (List.any_eq_true.mpr ⟨p, hp, by simpa using hne⟩)
      · intro p hp
        have hpU : p.2 ∈ uniqueRows (X.map (·.2)) := mem_uniqueRows.mpr (List.mem_map_of_mem hp)
        have hidx := List.getElem?_eq_some_iff.mpr ⟨List.idxOf_lt_length_iff.mpr hpU, List.getElem_idxOf (List.idxOf_lt_length_iff.mpr hpU)⟩
        constructor
        · intro hs
          dsimp only
          rw [lookup_none]; · rfl
          rw [g2]
          intro hmem
          obtain ⟨q, hq, hqe⟩ := List.mem_map.mp hmem
          obtain ⟨e1, e2⟩ := mem_selRows.mp hq
          rw [hqe, hidx] at e1
          rw [← Option.some.inj e1, hs] at e2; cases e2
        · intro hs
          have hq : ((uniqueRows (X.map (·.2))).idxOf p.2, p.2) ∈
              selRows (uniqueRows (X.map (·.2))) (ad.selected y) := mem_selRows.mpr ⟨hidx, hs⟩
          obtain ⟨k, hk⟩ := List.mem_iff_getElem?.mp hq
          have hlen : out.length = (selRows (uniqueRows (X.map (·.2))) (ad.selected y)).length := by
            have := congrArg List.length g2
            simpa using this
          have hk' : k < out.length := by rw [hlen]; exact (List.getElem?_eq_some_iff.mp hk).1
          have hko := List.getElem?_eq_getElem hk'
          have hfst : (out[k]).1 = (uniqueRows (X.map (·.2))).idxOf p.2 := by
            have e1 : (out.map (·.1))[k]? = some (out[k]).1 := by rw [List.getElem?_map, hko]; rfl
            have e2 : ((selRows (uniqueRows (X.map (·.2))) (ad.selected y)).map (·.1))[k]?
                = some ((uniqueRows (X.map (·.2))).idxOf p.2) := by rw [List.getElem?_map, hk]; rfl
            rw [g2, e2] at e1
            exact (Option.some.inj e1).symm
          have hlook := lookup_of_getElem? (by rw [g2]; exact nodup_selRows _ _) hko
          rw [hfst] at hlook
          dsimp only
          rw [hlook]
          exact g3 k _ _ hk hko

/-- A failing audit. -/
theorem audit_error {ι : Type} {X : List (ι × List K)} {er : Err}
    (hr : ad.builder.Reachable ext) (h : ad.audit ext o X y = (ad', .error er)) :
    ad.builder.Used ext ad'.builder ∧ ad' = { ad with builder := ad'.builder } ∧
    ((er = .assertion ∧ ad' = ad ∧
        (X = [] ∨ (∃ p ∈ X, p.2.length ≠ ad.coefs.length) ∨ ¬ (y = 1 ∨ y = -1 ∨ y = 0))) ∨
      ((∀ p ∈ X, ad.selected y p.2 = false) ∧ er = .key) ∨
      ∃ p ∈ X, ad.selected y p.2 = true ∧ (ad.builder.setX ext p.2).2 = .error er) := by
  unfold Auditor.audit at h
  by_cases h0 : X.isEmpty = true
  · rw [if_pos h0] at h; cases h
    exact ⟨.refl, rfl, Or.inl ⟨rfl, rfl, Or.inl (List.isEmpty_iff.mp h0)⟩⟩
  rw [if_neg h0] at h
  by_cases h1 : (X.any fun r => decide (r.2.length ≠ ad.coefs.length)) = true
  · rw [if_pos h1] at h; cases h
    obtain ⟨p, hp, hne⟩ := List.any_eq_true.mp h1
    exact ⟨.refl, rfl, Or.inl ⟨rfl, rfl, Or.inr (Or.inl ⟨p, hp, by simpa using hne⟩)⟩⟩
  rw [if_neg h1] at h
  by_cases h2 : ¬ (y = 1 ∨ y = -1 ∨ y = 0)
  · rw [if_pos h2] at h; cases h
    exact ⟨.refl, rfl, Or.inl ⟨rfl, rfl, Or.inr (Or.inr h2)⟩⟩
  rw [if_neg h2] at h
  dsimp only at h
  change (match auditLoop ext o ad.builder (selRows (uniqueRows (X.map (·.2))) (ad.selected y)) with
    | (b, .error er) => _ | (b, .ok out) => _) = _ at h
  cases hl : auditLoop ext o ad.builder (selRows (uniqueRows (X.map (·.2))) (ad.selected y)) with
  | mk b res =>
    rw [hl] at h
    cases res with
    | error er' =>
      cases h
      obtain ⟨g1, q, hq, g2⟩ := (auditLoop_spec hr .refl).2 hl
      obtain ⟨e1, e2⟩ := mem_selRows.mp hq
      have := mem_uniqueRows.mp (List.mem_of_getElem? e1)
      obtain ⟨p, hp, he⟩ := List.mem_map.mp this
      exact ⟨g1, rfl, Or.inr (Or.inr ⟨p, hp, by rw [he]; exact e2, by rw [he]; exact g2⟩)⟩
    | ok out =>
      dsimp only at h
      obtain ⟨g1, g2, g3⟩ := (auditLoop_spec hr .refl).1 hl
      by_cases h3 : out.isEmpty = true
      · rw [if_pos h3] at h
        cases h
        refine ⟨g1, rfl, Or.inr (Or.inl ⟨fun p hp => ?_, rfl⟩)⟩
        rw [List.isEmpty_iff.mp h3, List.map_nil] at g2
        by_contra hne
        have hpU : p.2 ∈ uniqueRows (X.map (·.2)) := mem_uniqueRows.mpr (List.mem_map_of_mem hp)
        obtain ⟨k, hk⟩ := List.mem_iff_getElem?.mp hpU
        have hq : (k, p.2) ∈ selRows (uniqueRows (X.map (·.2))) (ad.selected y) :=
          mem_selRows.mpr ⟨hk, by simpa using hne⟩
        have : k ∈ (selRows (uniqueRows (X.map (·.2))) (ad.selected y)).map (·.1) :=
          List.mem_map_of_mem (f := (·.1)) hq
        rw [← g2] at this
        simp at this
      · rw [if_neg h3] at h
        cases h

theorem mkBuilder_fields {be : Backend} {ct : CostType} {A : ActionSet K} {w : List K} {t : K}
    (h : mkBuilder be ct A w t = .ok b) : b.coefs = w ∧ b.intercept = t ∧ b.costType = ct := by
  unfold mkBuilder at h
  obtain ⟨-, -, h⟩ := bind_ok_iff.mp h
  dsimp only at h
  by_cases hk : A.alignmentKnown = true
  · rw [if_pos hk] at h
    cases h
    exact ⟨rfl, rfl, rfl⟩
  rw [if_neg hk] at h
  obtain ⟨A', -, h⟩ := bind_ok_iff.mp h
  cases h
  exact ⟨rfl, rfl, rfl⟩

theorem dot_comm (v w : List K) : dot v w = dot w v := by
  unfold dot
  rw [List.zipWith_comm]
  congr 1
  congr 1
  funext a b
  exact mul_comm _ _

/-- What holds of every reachable auditor. -/
theorem Auditor.Reachable.inv (h : ad.Reachable ext) : ad.builder.Reachable ext ∧ ad.builder.coefs = ad.coefs ∧
    ad.builder.intercept = ad.intercept ∧ ad.builder.costType = .max := by
  induction h with
  | @mk be A w t ad hA h =>
    unfold mkAuditor at h
    cases h1 : A.setAlignment w with
    | error e => rw [h1] at h; cases h
    | ok A' =>
      rw [h1] at h
      cases h2 : mkBuilder be .max A' w t with
      | error e =>
        simp only [bind, Except.bind] at h
        rw [h2] at h; cases h
      | ok b =>
        simp only [bind, Except.bind] at h
        rw [h2] at h
        cases h
        refine ⟨.mk (.align hA h1) h2, ?_⟩
        exact mkBuilder_fields h2
  | @audit ι ad o X y hr ih =>
    obtain ⟨ih1, ih2, ih3, ih4⟩ := ih
    have key : ad.builder.Used ext (ad.audit ext o X y).1.builder ∧
        (ad.audit ext o X y).1 = { ad with builder := (ad.audit ext o X y).1.builder } := by
      cases hh : ad.audit ext o X y with
      | mk ad' res =>
        cases res with
        | error er => obtain ⟨g1, g2, -⟩ := audit_error ih1 hh; exact ⟨g1, g2⟩
        | ok T => obtain ⟨-, -, -, g1, g2, -⟩ := audit_ok ih1 hh; exact ⟨g1, g2⟩
    obtain ⟨hu, he⟩ := key
    obtain ⟨hR, hs⟩ := hu.setup ih1
    refine ⟨hR, ?_, ?_, hs.costType.trans ih4⟩
    · rw [hs.coefs, ih2, he]
    · rw [hs.intercept, ih3, he]
  | user hr hb hw ht hc ih => exact ⟨hb, hw.trans ih.2.1, ht.trans ih.2.2.1, hc.trans ih.2.2.2⟩

/-- A row is audited iff it does not have the outcome asked for. -/
theorem selected_iff (ad : Auditor K) (y : Int) (r : List K) :
    ad.selected y r = true ↔ ¬ HasOutcome y ad.coefs ad.intercept r := by
  have hd : dot r ad.coefs = dot ad.coefs r := dot_comm _ _
  unfold Auditor.selected HasOutcome
  by_cases hy : 0 < y
  · rw [if_pos hy, if_pos hy, hd, decide_eq_true_eq, not_le]
    constructor <;> intro h <;> linarith
  · rw [if_neg hy, if_neg hy, hd, decide_eq_true_eq, not_lt]
    constructor <;> intro h <;> linarith

theorem selected_false_iff (ad : Auditor K) (y : Int) (r : List K) :
    ad.selected y r = false ↔ HasOutcome y ad.coefs ad.intercept r := by
  rw [← Bool.not_eq_true, selected_iff, not_not]

end Recourse
