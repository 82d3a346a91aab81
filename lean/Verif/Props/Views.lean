import Verif.Model.Views
import Verif.Lemmas.Flip
import Verif.Spec

/-!
# C113: tables and lists that a flipset hands out
-/

set_option linter.unusedSectionVars false

namespace Recourse

variable {K : Type} [Field K] [LinearOrder K] [IsStrictOrderedRing K] [FloorRing K]

variable {ext : Ext K} {s s' t t' : Shown K} {P : List (ShownCall K)} {outs : List (ShownOut K)}

/-! ## Specification -/

/-- The call changes a handed-out object: the rows of a data frame, or the list of items. -/
def ShownCall.isEdit : ShownCall K → Bool
  | .edit _ _ => true
  | .editItems _ => true
  | _ => false

/-- The flipset has a table. -/
def Shown.Ok (s : Shown K) : Prop := s.cur < s.tables.length

/-- The program changes data frames only after the flipset has replaced them, and never the list of items. -/
def OldEdits (ext : Ext K) : Shown K → List (ShownCall K) → Prop
  | _, [] => True
  | s, c :: cs => (∀ n rows, c = .edit n rows → n ≠ s.cur) ∧ (∀ l, c ≠ .editItems l) ∧
      ∀ s' out, s.step ext c = some (s', out) → OldEdits ext s' cs

/-! ## One call -/

theorem Shown.new_ok (fs : Flipset K) : (Shown.new fs).Ok := by
  show 0 < 1
  exact one_pos

theorem Shown.new_flipset (fs : Flipset K) : (Shown.new fs).flipset = fs := rfl

theorem Shown.inPlace_flipset (hs : s.Ok) (fs : Flipset K) : (s.inPlace fs).flipset = fs := by
  unfold Shown.flipset Shown.inPlace
  dsimp only
  rw [List.getD_eq_getElem?_getD, List.getElem?_set_self hs]
  rfl

theorem Shown.fresh_flipset (s : Shown K) (fs : Flipset K) : (s.fresh fs).flipset = fs := by
  unfold Shown.flipset Shown.fresh
  dsimp only
  rw [List.getD_eq_getElem?_getD, List.getElem?_append_right (le_refl _), Nat.sub_self]
  rfl

/-- What `populate` does: it adds items and makes a new table, or it leaves items and rows alone. -/
theorem Shown.populate_spec {o : Oracle K} {fuel : ℕ} {total : Option ℕ} {et : EnumType} {ct : CostType} {res : Except Err Unit}
    (h : s.populate ext o fuel total et ct = some (s', res)) :
    ∃ fs, s.flipset.populate ext o fuel total et ct = some (fs, res) ∧ s'.flipset = fs ∧
      ((s.fs.items.length < s'.fs.items.length ∧ s' = s.fresh fs) ∨
        (s'.fs.items = s.fs.items ∧ s'.tables = s.tables ∧ s'.cur = s.cur)) := by
  unfold Shown.populate at h
  cases hp : s.flipset.populate ext o fuel total et ct with
  | none => rw [hp] at h; cases h
  | some q =>
    obtain ⟨fs, r⟩ := q
    rw [hp] at h
    simp only [Option.some.injEq, Prod.mk.injEq] at h
    obtain ⟨h1, rfl⟩ := h
    refine ⟨fs, rfl, ?_⟩
    have hsame : fs.items = s.fs.items → fs.rows = s.flipset.rows → s.fs.items.length < fs.items.length ∨
        (({ s with fs := fs } : Shown K).flipset = fs) := by
      intro _ hr
      right
      unfold Shown.flipset at hr ⊢
      dsimp only at hr ⊢
      rw [← hr]
    rcases populate_flip hp with ⟨er, A, b, -, rfl⟩ | ⟨A, b0, b, infos, -, -, hadd, -⟩
    · have hn : ¬ s.fs.items.length < ({ s.flipset with aset := A, builder := b } : Flipset K).items.length := lt_irrefl _
      rw [if_neg hn] at h1
      subst h1
      exact ⟨rfl, Or.inr ⟨rfl, rfl, rfl⟩⟩
    · obtain ⟨-, hfs⟩ := flipAdd_ok hadd
      cases infos with
      | nil =>
        rw [if_pos (show ([] : List (Info K)).isEmpty = true from rfl)] at hfs
        subst hfs
        have hn : ¬ s.fs.items.length < ({ s.flipset with aset := A, builder := some b } : Flipset K).items.length := lt_irrefl _
        rw [if_neg hn] at h1
        subst h1
        exact ⟨rfl, Or.inr ⟨rfl, rfl, rfl⟩⟩
      | cons i is =>
        rw [if_neg (by simp)] at hfs
        have hlen : s.fs.items.length < fs.items.length := by
          rw [hfs, (resort_fields _).1]
          show s.fs.items.length < (s.fs.items ++ (i :: is)).length
          rw [List.length_append, List.length_cons]
          omega
        rw [if_pos hlen] at h1
        subst h1
        exact ⟨Shown.fresh_flipset _ _, Or.inl ⟨hlen, rfl⟩⟩

/-- What one call does to the tables. -/
theorem Shown.step_tables (hs : s.Ok) {c : ShownCall K} {out : ShownOut K} (h : s.step ext c = some (s', out)) :
    s'.Ok ∧ s.tables.length ≤ s'.tables.length ∧
    (∀ n, n < s.tables.length → n ≠ s.cur → (∀ rows, c ≠ .edit n rows) → s'.tables[n]? = s.tables[n]?) ∧
    (c.isEdit = false → (s'.tables.getD s.cur []).Perm (s.tables.getD s.cur [])) ∧
    (c.isEdit = false → (s'.cur = s.cur ∧ s'.fs.items = s.fs.items) ∨
      (s.tables.length ≤ s'.cur ∧ s.fs.items.length < s'.fs.items.length)) := by
  have hin : ∀ fs : Flipset K, fs.rows.Perm s.flipset.rows → fs.items = s.fs.items → (s.inPlace fs).Ok ∧
      s.tables.length ≤ (s.inPlace fs).tables.length ∧
      (∀ n, n < s.tables.length → n ≠ s.cur → (∀ rows, c ≠ .edit n rows) → (s.inPlace fs).tables[n]? = s.tables[n]?) ∧
      (c.isEdit = false → ((s.inPlace fs).tables.getD s.cur []).Perm (s.tables.getD s.cur [])) ∧
      (c.isEdit = false → ((s.inPlace fs).cur = s.cur ∧ (s.inPlace fs).fs.items = s.fs.items) ∨
        (s.tables.length ≤ (s.inPlace fs).cur ∧ s.fs.items.length < (s.inPlace fs).fs.items.length)) := by
    intro fs hperm hitems
    unfold Shown.inPlace
    refine ⟨?_, ?_, ?_, ?_, fun _ => Or.inl ⟨rfl, hitems⟩⟩
    · show s.cur < (s.tables.set s.cur fs.rows).length
      rw [List.length_set]; exact hs
    · dsimp only; rw [List.length_set]
    · intro n _ hn _
      exact List.getElem?_set_ne hn.symm
    · intro _
      dsimp only
      rw [List.getD_eq_getElem?_getD, List.getElem?_set_self hs]
      exact hperm
  cases c with
  | populate o fuel total et ct =>
    unfold Shown.step at h
    dsimp only at h
    cases hp : s.populate ext o fuel total et ct with
    | none => rw [hp] at h; cases h
    | some q =>
      obtain ⟨s1, res⟩ := q
      rw [hp] at h
      cases h
      obtain ⟨fs, -, -, ⟨hlt, rfl⟩ | ⟨h1, h2, h3⟩⟩ := Shown.populate_spec hp
      · refine ⟨?_, ?_, ?_, ?_, fun _ => Or.inr ⟨le_refl _, hlt⟩⟩
        · show s.tables.length < (s.tables ++ [fs.rows]).length
          rw [List.length_append, List.length_singleton]
          exact Nat.lt_succ_self _
        · show s.tables.length ≤ (s.tables ++ [fs.rows]).length
          rw [List.length_append]
          exact Nat.le_add_right _ _
        · intro n hn _ _
          exact List.getElem?_append_left hn
        · intro _
          show ((s.tables ++ [fs.rows]).getD s.cur []).Perm _
          rw [List.getD_eq_getElem?_getD, List.getElem?_append_left hs, ← List.getD_eq_getElem?_getD]
      · refine ⟨?_, h2 ▸ le_refl _, fun _ _ _ _ => by rw [h2], fun _ => by rw [h2], fun _ => Or.inl ⟨h3, h1⟩⟩
        show s'.cur < s'.tables.length
        rw [h2, h3]; exact hs
  | sortBy cols inplace =>
    unfold Shown.step at h
    dsimp only at h
    cases hso : s.flipset.sort cols inplace with
    | error er =>
      rw [hso] at h
      cases h
      exact ⟨hs, le_refl _, fun _ _ _ _ => rfl, fun _ => .refl _, fun _ => Or.inl ⟨rfl, rfl⟩⟩
    | ok fs =>
      rw [hso] at h
      cases h
      unfold Flipset.sort at hso
      by_cases hc : cols.isEmpty = true
      · rw [if_pos hc] at hso; cases hso
      · rw [if_neg hc] at hso
        cases hso
        have hr := resort_fields ({ s.flipset with sortBy := cols, sortInplace := inplace } : Flipset K)
        exact hin _ hr.2.2.2.2.2.2.2 hr.1
  | resort =>
    cases h
    have hr := resort_fields s.flipset
    exact hin _ hr.2.2.2.2.2.2.2 hr.1
  | flat =>
    cases h
    have hr := resort_fields s.flipset
    exact hin _ hr.2.2.2.2.2.2.2 hr.1
  | df =>
    cases h
    exact ⟨hs, le_refl _, fun _ _ _ _ => rfl, fun _ => .refl _, fun _ => Or.inl ⟨rfl, rfl⟩⟩
  | items =>
    cases h
    exact ⟨hs, le_refl _, fun _ _ _ _ => rfl, fun _ => .refl _, fun _ => Or.inl ⟨rfl, rfl⟩⟩
  | edit n rows =>
    cases h
    refine ⟨?_, ?_, ?_, fun h => (by cases h), fun h => (by cases h)⟩
    · show s.cur < (s.tables.set n rows).length
      rw [List.length_set]; exact hs
    · dsimp only; rw [List.length_set]
    · intro m _ _ hm
      refine List.getElem?_set_ne ?_
      rintro rfl
      exact hm rows rfl
  | editItems items =>
    cases h
    exact ⟨hs, le_refl _, fun _ _ _ _ => rfl, fun h => (by cases h), fun h => (by cases h)⟩

theorem Shown.run_cons {c : ShownCall K} {cs : List (ShownCall K)} (h : s.run ext (c :: cs) = some (s', outs)) :
    ∃ s1 out outs1, s.step ext c = some (s1, out) ∧ s1.run ext cs = some (s', outs1) ∧ outs = out :: outs1 := by
  unfold Shown.run at h
  cases hst : s.step ext c with
  | none => rw [hst] at h; cases h
  | some q =>
    obtain ⟨s1, out⟩ := q
    rw [hst] at h
    dsimp only at h
    cases hr : s1.run ext cs with
    | none => rw [hr] at h; cases h
    | some q2 =>
      obtain ⟨s2, outs1⟩ := q2
      rw [hr] at h
      cases h
      exact ⟨s1, out, outs1, rfl, hr, rfl⟩

/-! ## Programs -/

/-- **C113**: tables that the flipset has replaced never change again, whatever is called, unless the program changes them itself. -/
theorem C113_frozen (hs : s.Ok) (h : s.run ext P = some (s', outs)) {n : ℕ} (hn : n < s.tables.length) (hc : n ≠ s.cur)
    (hP : ∀ rows, ShownCall.edit n rows ∉ P) : s'.tables[n]? = s.tables[n]? := by
  induction P generalizing s outs with
  | nil => cases h; rfl
  | cons c cs ih =>
    obtain ⟨s1, out, outs1, h1, h2, -⟩ := Shown.run_cons h
    obtain ⟨ok, hlen, hfr, -, -⟩ := Shown.step_tables hs h1
    have hne : ∀ rows, c ≠ .edit n rows := fun rows he => hP rows (he ▸ List.mem_cons_self ..)
    have hc1 : n ≠ s1.cur := by
      cases c with
      | edit m rows => cases h1; exact hc
      | editItems l => cases h1; exact hc
      | populate o fuel total et ct =>
        rcases (Shown.step_tables hs h1).2.2.2.2 rfl with ⟨e, -⟩ | ⟨e, -⟩
        · rw [e]; exact hc
        · omega
      | sortBy cols inplace =>
        rcases (Shown.step_tables hs h1).2.2.2.2 rfl with ⟨e, -⟩ | ⟨e, -⟩
        · rw [e]; exact hc
        · omega
      | resort => cases h1; exact hc
      | flat => cases h1; exact hc
      | df => cases h1; exact hc
      | items => cases h1; exact hc
    rw [ih ok h2 (by omega) hc1 (fun rows hm => hP rows (List.mem_cons_of_mem _ hm)), hfr n hn hc hne]

theorem run_quiet (hs : s.Ok) (h : s.run ext P = some (s', outs)) (hP : ∀ c ∈ P, c.isEdit = false) :
    s'.Ok ∧ s.tables.length ≤ s'.tables.length ∧
    (∀ n, n < s.tables.length → (s'.tables.getD n []).Perm (s.tables.getD n [])) ∧
    ((s'.cur = s.cur ∧ s'.fs.items = s.fs.items) ∨ (s.tables.length ≤ s'.cur ∧ s.fs.items.length < s'.fs.items.length)) := by
  induction P generalizing s outs with
  | nil => cases h; exact ⟨hs, le_refl _, fun _ _ => .refl _, Or.inl ⟨rfl, rfl⟩⟩
  | cons c cs ih =>
    obtain ⟨s1, out, outs1, h1, h2, -⟩ := Shown.run_cons h
    obtain ⟨ok, hlen, hfr, hperm, hcur⟩ := Shown.step_tables hs h1
    have hc := hP c (List.mem_cons_self ..)
    obtain ⟨ok', hlen', hperm', hcur'⟩ := ih ok h2 fun c hm => hP c (List.mem_cons_of_mem _ hm)
    refine ⟨ok', by omega, ?_, ?_⟩
    · intro n hn
      refine (hperm' n (by omega)).trans ?_
      by_cases he : n = s.cur
      · rw [he]; exact hperm hc
      · have := hfr n hn he (by rintro rows rfl; cases hc)
        rw [List.getD_eq_getElem?_getD, List.getD_eq_getElem?_getD, this]
    · rcases hcur hc with ⟨e1, e2⟩ | ⟨e1, e2⟩
      · rcases hcur' with ⟨f1, f2⟩ | ⟨f1, f2⟩
        · exact Or.inl ⟨f1.trans e1, f2.trans e2⟩
        · exact Or.inr ⟨by omega, by rw [← e2]; exact f2⟩
      · rcases hcur' with ⟨f1, f2⟩ | ⟨f1, f2⟩
        · exact Or.inr ⟨by omega, by rw [f2]; exact e2⟩
        · exact Or.inr ⟨by omega, by omega⟩

/-- **C113**: a table that was handed out keeps its rows, up to their order, for ever (unless the program changes them); and it is the flipset's table exactly
as long as no items are added: after that the flipset has a table that is a new object, which was never handed out before. -/
theorem C113_rows (hs : s.Ok) (h : s.run ext P = some (s', outs)) (hP : ∀ c ∈ P, c.isEdit = false) :
    (∀ n, n < s.tables.length → (s'.tables.getD n []).Perm (s.tables.getD n [])) ∧
    (s'.cur = s.cur ↔ s'.fs.items.length = s.fs.items.length) ∧ (s'.cur ≠ s.cur → s.tables.length ≤ s'.cur) := by
  obtain ⟨-, -, hp, hc⟩ := run_quiet hs h hP
  have hs' : s.cur < s.tables.length := hs
  refine ⟨hp, ?_, ?_⟩
  · rcases hc with ⟨e1, e2⟩ | ⟨e1, e2⟩
    · exact ⟨fun _ => by rw [e2], fun _ => e1⟩
    · exact ⟨fun e => by omega, fun e => by omega⟩
  · intro hne
    rcases hc with ⟨e1, -⟩ | ⟨e1, -⟩
    · exact absurd e1 hne
    · exact e1

/-- **C113**, link to the other properties: as long as the program does not change handed-out objects, the flipset is in a state of the histories that
all other properties speak about. -/
theorem C113_histories {ord : Option (List SortCol)} (hs : s.Ok) (hr : s.flipset.Reachable ext ord) (h : s.run ext P = some (s', outs))
    (hP : ∀ c ∈ P, c.isEdit = false) : ∃ ord', s'.flipset.Reachable ext ord' := by
  induction P generalizing s outs ord with
  | nil => cases h; exact ⟨ord, hr⟩
  | cons c cs ih =>
    obtain ⟨s1, out, outs1, h1, h2, -⟩ := Shown.run_cons h
    have ok := (Shown.step_tables hs h1).1
    have hc := hP c (List.mem_cons_self ..)
    have key : ∃ ord1, s1.flipset.Reachable ext ord1 := by
      cases c with
      | edit m rows => cases hc
      | editItems l => cases hc
      | populate o fuel total et ct =>
        unfold Shown.step at h1
        dsimp only at h1
        cases hp : s.populate ext o fuel total et ct with
        | none => rw [hp] at h1; cases h1
        | some q =>
          obtain ⟨s2, res⟩ := q
          rw [hp] at h1
          cases h1
          obtain ⟨fs, hpf, he, -⟩ := Shown.populate_spec hp
          rw [he]
          exact ⟨_, hr.populate hpf⟩
      | sortBy cols inplace =>
        unfold Shown.step at h1
        dsimp only at h1
        cases hso : s.flipset.sort cols inplace with
        | error er => rw [hso] at h1; cases h1; exact ⟨_, hr⟩
        | ok fs =>
          rw [hso] at h1
          cases h1
          rw [Shown.inPlace_flipset hs]
          exact ⟨_, hr.sortBy hso⟩
      | resort => cases h1; rw [Shown.inPlace_flipset hs]; exact ⟨_, hr.resort⟩
      | flat => cases h1; rw [Shown.inPlace_flipset hs]; exact ⟨_, hr.flat⟩
      | df => cases h1; exact ⟨_, hr⟩
      | items => cases h1; exact ⟨_, hr⟩
    obtain ⟨ord1, hr1⟩ := key
    exact ih ok hr1 h2 fun c hm => hP c (List.mem_cons_of_mem _ hm)

/-- **C113**: the list of items only grows at its end: what a program has seen in `solutions_info` stays where it is. -/
theorem C113_items (hs : s.Ok) (h : s.run ext P = some (s', outs)) (hP : ∀ c ∈ P, c.isEdit = false) :
    s.fs.items <+: s'.fs.items := by
  induction P generalizing s outs with
  | nil => cases h; exact List.prefix_refl _
  | cons c cs ih =>
    obtain ⟨s1, out, outs1, h1, h2, -⟩ := Shown.run_cons h
    obtain ⟨ok, -, -, -, hcur⟩ := Shown.step_tables hs h1
    have hc := hP c (List.mem_cons_self ..)
    refine List.IsPrefix.trans ?_ (ih ok h2 fun c hm => hP c (List.mem_cons_of_mem _ hm))
    have hno : s1.fs.items = s.fs.items → s.fs.items <+: s1.fs.items := fun e => by rw [e]; exact List.prefix_refl _
    cases c with
    | edit m rows => cases hc
    | editItems l => cases hc
    | populate o fuel total et ct =>
      unfold Shown.step at h1
      dsimp only at h1
      cases hp : s.populate ext o fuel total et ct with
      | none => rw [hp] at h1; cases h1
      | some q =>
        obtain ⟨s2, res⟩ := q
        rw [hp] at h1
        cases h1
        obtain ⟨fs, hpf, he, -⟩ := Shown.populate_spec hp
        have hi : s1.fs.items = fs.items := show s1.flipset.items = _ by rw [he]
        rw [hi]
        rcases populate_flip hpf with ⟨er, A, b, -, rfl⟩ | ⟨A, b0, b, infos, -, -, hadd, -⟩
        · exact List.prefix_refl _
        · obtain ⟨-, hfs⟩ := flipAdd_ok hadd
          rw [hfs]
          split
          · exact List.prefix_refl _
          · rw [(resort_fields _).1]
            exact List.prefix_append _ _
    | sortBy cols inplace =>
      unfold Shown.step at h1
      dsimp only at h1
      cases hso : s.flipset.sort cols inplace with
      | error er => rw [hso] at h1; cases h1; exact List.prefix_refl _
      | ok fs =>
        rw [hso] at h1
        cases h1
        refine hno ?_
        unfold Flipset.sort at hso
        by_cases hc : cols.isEmpty = true
        · rw [if_pos hc] at hso; cases hso
        · rw [if_neg hc] at hso
          cases hso
          exact (resort_fields _).1
    | resort => cases h1; exact hno (resort_fields s.flipset).1
    | flat => cases h1; exact hno (resort_fields s.flipset).1
    | df => cases h1; exact List.prefix_refl _
    | items => cases h1; exact List.prefix_refl _

/-! ## Changes to replaced tables -/

/-- The same flipset, up to tables that it no longer uses. -/
structure SameShown (s t : Shown K) : Prop where
  flipset : s.flipset = t.flipset
  cur : s.cur = t.cur
  length : s.tables.length = t.tables.length
  ok : s.Ok

theorem SameShown.okT (h : SameShown s t) : t.Ok := by
  show t.cur < t.tables.length
  rw [← h.cur, ← h.length]; exact h.ok

theorem SameShown.items (h : SameShown s t) : s.fs.items = t.fs.items :=
  show s.flipset.items = t.flipset.items by rw [h.flipset]

theorem SameShown.inPlace (h : SameShown s t) (fs : Flipset K) : SameShown (s.inPlace fs) (t.inPlace fs) := by
  refine ⟨?_, h.cur, ?_, ?_⟩
  · rw [Shown.inPlace_flipset h.ok, Shown.inPlace_flipset h.okT]
  · unfold Shown.inPlace; dsimp only; rw [List.length_set, List.length_set]; exact h.length
  · show s.cur < (s.tables.set s.cur fs.rows).length
    rw [List.length_set]; exact h.ok

theorem SameShown.step (h : SameShown s t) {c : ShownCall K} (hc : c.isEdit = false) {out : ShownOut K} (h1 : s.step ext c = some (s', out)) :
    ∃ t', t.step ext c = some (t', out) ∧ SameShown s' t' := by
  cases c with
  | edit m rows => cases hc
  | editItems l => cases hc
  | populate o fuel total et ct =>
    unfold Shown.step Shown.populate at h1 ⊢
    dsimp only at h1 ⊢
    rw [← h.flipset]
    cases hp : s.flipset.populate ext o fuel total et ct with
    | none => rw [hp] at h1; cases h1
    | some q =>
      obtain ⟨fs, res⟩ := q
      rw [hp] at h1
      cases h1
      rw [← h.items]
      refine ⟨_, rfl, ?_⟩
      have hspec := Shown.populate_spec (s := s) (ext := ext) (o := o) (fuel := fuel) (total := total) (et := et) (ct := ct) (res := res)
        (by unfold Shown.populate; rw [hp])
      obtain ⟨fs', hfs', he, hcase⟩ := hspec
      rw [hp] at hfs'
      cases hfs'
      by_cases hl : s.fs.items.length < fs.items.length
      · rw [if_pos hl, if_pos hl]
        refine ⟨?_, h.length, ?_, ?_⟩
        · rw [Shown.fresh_flipset, Shown.fresh_flipset]
        · show (s.tables ++ [fs.rows]).length = (t.tables ++ [fs.rows]).length
          rw [List.length_append, List.length_append, h.length]
        · show s.tables.length < (s.tables ++ [fs.rows]).length
          rw [List.length_append, List.length_singleton]
          exact Nat.lt_succ_self _
      · rw [if_neg hl] at he ⊢
        rw [if_neg hl]
        refine ⟨?_, h.cur, h.length, h.ok⟩
        have hrows : s.tables.getD s.cur [] = t.tables.getD t.cur [] :=
          show s.flipset.rows = t.flipset.rows by rw [h.flipset]
        unfold Shown.flipset
        dsimp only
        rw [hrows]
  | sortBy cols inplace =>
    unfold Shown.step at h1 ⊢
    dsimp only at h1 ⊢
    rw [← h.flipset]
    cases hso : s.flipset.sort cols inplace with
    | error er => rw [hso] at h1; cases h1; exact ⟨t, rfl, h⟩
    | ok fs => rw [hso] at h1; cases h1; exact ⟨_, rfl, h.inPlace fs⟩
  | resort => cases h1; exact ⟨_, rfl, by rw [← h.flipset]; exact h.inPlace _⟩
  | flat => cases h1; refine ⟨t.inPlace s.flipset.toFlat.1, ?_, h.inPlace _⟩; unfold Shown.step; rw [← h.flipset]
  | df => cases h1; refine ⟨t, ?_, h⟩; unfold Shown.step; rw [h.cur]
  | items => cases h1; refine ⟨t, ?_, h⟩; unfold Shown.step; rw [h.items]

/-- **C113** (changes to replaced tables): what a program does to tables that the flipset has already replaced does not matter: without these changes every other call
returns the same, and the flipset ends in the same state. -/
theorem C113_replaced (hs : s.Ok) (h : s.run ext P = some (s', outs)) (hP : OldEdits ext s P) :
    ∃ t' outs', s.run ext (P.filter fun c => !c.isEdit) = some (t', outs') ∧ t'.flipset = s'.flipset ∧
      outs' = ((P.zip outs).filter fun p => !p.1.isEdit).map (·.2) := by
  have key : ∀ (s t : Shown K) (outs : List (ShownOut K)), SameShown s t → s.run ext P = some (s', outs) → OldEdits ext s P →
      ∃ t' outs', t.run ext (P.filter fun c => !c.isEdit) = some (t', outs') ∧ t'.flipset = s'.flipset ∧
        outs' = ((P.zip outs).filter fun p => !p.1.isEdit).map (·.2) := by
    clear h hP hs
    induction P with
    | nil => intro s t outs hst h _; cases h; exact ⟨t, [], rfl, hst.flipset.symm, rfl⟩
    | cons c cs ih =>
      intro s t outs hst h hP
      obtain ⟨s1, out, outs1, h1, h2, rfl⟩ := Shown.run_cons h
      obtain ⟨p1, p2, p3⟩ := hP
      by_cases hc : c.isEdit = true
      · have hs1 : SameShown s1 t := by
          cases c with
          | edit n rows =>
            cases h1
            have hne := p1 n rows rfl
            refine ⟨?_, hst.cur, ?_, ?_⟩
            · rw [← hst.flipset]
              unfold Shown.flipset
              dsimp only
              rw [List.getD_eq_getElem?_getD, List.getElem?_set_ne hne, ← List.getD_eq_getElem?_getD]
            · show (s.tables.set n rows).length = _
              rw [List.length_set]; exact hst.length
            · show s.cur < (s.tables.set n rows).length
              rw [List.length_set]; exact hst.ok
          | editItems l => exact absurd rfl (p2 l)
          | populate _ _ _ _ _ => cases hc
          | sortBy _ _ => cases hc
          | resort => cases hc
          | flat => cases hc
          | df => cases hc
          | items => cases hc
        obtain ⟨t', outs', r1, r2, r3⟩ := ih s1 t outs1 hs1 h2 (p3 s1 out h1)
        refine ⟨t', outs', ?_, r2, ?_⟩
        · rw [List.filter_cons, if_neg (by rw [hc]; decide)]; exact r1
        · rw [List.zip_cons_cons, List.filter_cons, if_neg (by rw [hc]; decide)]; exact r3
      · have hc : c.isEdit = false := by simpa using hc
        obtain ⟨t1, g1, g2⟩ := hst.step hc h1
        obtain ⟨t', outs', r1, r2, r3⟩ := ih s1 t1 outs1 g2 h2 (p3 s1 out h1)
        refine ⟨t', out :: outs', ?_, r2, ?_⟩
        · rw [List.filter_cons, if_pos (by rw [hc]; rfl)]
          unfold Shown.run
          rw [g1]
          dsimp only
          rw [r1]
        · rw [List.zip_cons_cons, List.filter_cons, if_pos (by rw [hc]; rfl), List.map_cons, r3]
  exact key s s outs ⟨rfl, rfl, rfl, hs⟩ h hP

end Recourse
