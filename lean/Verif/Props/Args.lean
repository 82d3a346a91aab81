import Verif.Model.Args
import Verif.Props.Construct
import Verif.Props.Reads
import Verif.Props.Replace

/-!
# Constructor arguments, flags and internal checks (C86)
-/

set_option linter.unusedSectionVars false

namespace Recourse

variable {K : Type} [Field K] [LinearOrder K] [IsStrictOrderedRing K] [FloorRing K]
  {ext : Ext K} {A A' : ActionSet K}

/-! ## Internal checks -/

theorem checkRep_of {e : Elem K} (h1 : e.Attrs) (h2 : e.GridOk) : e.checkRep = true := by
  unfold Elem.checkRep
  simp only [Bool.and_eq_true, decide_eq_true_eq]
  exact ⟨⟨h1.bounds, h2.sorted.imp (fun h => ne_of_lt h)⟩, h2.sorted.imp (fun h => le_of_lt h)⟩

/-- **C86**, features: after any history the internal check of a feature (bounds in order, grid distinct and sorted)
would succeed. -/
theorem C86_feature_check {e : Elem K} (h : e.Reachable ext) : e.checkRep = true := checkRep_of h.inv.1 h.inv.2

/-- **C86**, features: the final check of the constructor never fails. -/
theorem C86_feature_unchecked (name : String) (values : List K) (bounds : PyVal K) (vt : Option VType)
    (act : Bool) (st : PyVal K) (sd : K) (ss : PyVal K) :
    mkElem name values bounds vt act st sd ss = mkElemUnchecked name values bounds vt act st sd ss := by
  unfold mkElem mkElemUnchecked
  cases pyAssert (decide (1 ≤ name.length)) with
  | error e => rfl
  | ok u1 =>
    change (pyAssert _ >>= _) = (pyAssert _ >>= _)
    cases pyAssert (decide (1 ≤ (npSort values).length)) with
    | error e => rfl
    | ok u2 =>
      change (parseBounds _ _ >>= _) = (parseBounds _ _ >>= _)
      cases hb : parseBounds (npSort values) bounds with
      | error e => rfl
      | ok b =>
        change (parseStepType _ >>= _) = (parseStepType _ >>= _)
        cases parseStepType st with
        | error e => rfl
        | ok st' =>
          change (parseStepSize _ _ >>= _) = (parseStepSize _ _ >>= _)
          cases hs : parseStepSize st' ss with
          | error e => rfl
          | ok s =>
            change (mkGrid _ _ _ _ _ >>= _) = (mkGrid _ _ _ _ _ >>= _)
            cases hg : mkGrid (vt.getD (determineType (npSort values))) b.lb b.ub st' s with
            | error e => rfl
            | ok g =>
              have ha : Elem.Attrs (⟨name, npSort values, vt.getD (determineType (npSort values)), act, b, st', s,
                  sgn sd, none, g, none, []⟩ : Elem K) := ⟨parseBounds_le hb, parseStepSize_pos hs⟩
              have h2 := mkGrid_eq (g := g) ha hg
              have hc := checkRep_of ha (h2.1.gridOk h2.2.mp)
              change (pyAssert _ >>= _) = _
              rw [hc]
              rfl

/-! ## Arguments of `ActionSet` -/

/-- What the argument `print_flag` means: not given or `None`, the default `True`; a truth value, itself. -/
def IsPrintArg : Option (PyVal K) → Bool → Prop
  | none, p => p = true
  | some .none, p => p = true
  | some (.bool b), p => p = b
  | _, _ => False

/-- What the argument `check_flag` of a set means: not given, the default `True`; a truth value, itself. -/
def IsCheckArg : Option (PyVal K) → Bool → Prop
  | none, c => c = true
  | some (.bool b), c => c = b
  | _, _ => False

/-- A number equal to the integer `z`: an integer, a truth value or a float. -/
def IsInteger : PyVal K → Int → Prop
  | .int i, z => i = z
  | .bool b, z => z = if b then 1 else 0
  | .flt x, z => x = (z : K)
  | _, _ => False

/-- What a value given for `y_desired` means: -1, 0 or 1, as a number or an array with one number. -/
def IsOutcome (v : PyVal K) (z : Int) : Prop :=
  (z = -1 ∨ z = 0 ∨ z = 1) ∧ (IsInteger v z ∨ ∃ w, v = .arr [w] ∧ IsInteger w z)

theorem yValue_iff {v : PyVal K} {z : Int} :
    (yValue v = some z ∧ (z = -1 ∨ z = 0 ∨ z = 1)) ↔ IsOutcome v z := by
  have h2 : (-1 : K) ≠ 1 := fun h => absurd h (ne_of_lt (by linarith [zero_lt_one (α := K)]))
  have hf : ∀ x : K, ((if x = 1 then some (1 : Int) else if x = 0 then some 0 else if x = -1 then some (-1) else none) = some z ∧
      (z = -1 ∨ z = 0 ∨ z = 1)) ↔ ((z = -1 ∨ z = 0 ∨ z = 1) ∧ x = (z : K)) := by
    intro x
    constructor
    · rintro ⟨h, hz⟩
      refine ⟨hz, ?_⟩
      by_cases e1 : x = 1
      · rw [if_pos e1] at h; rw [← Option.some.inj h, e1]; simp
      · rw [if_neg e1] at h
        by_cases e2 : x = 0
        · rw [if_pos e2] at h; rw [← Option.some.inj h, e2]; simp
        · rw [if_neg e2] at h
          by_cases e3 : x = -1
          · rw [if_pos e3] at h; rw [← Option.some.inj h, e3]; simp
          · rw [if_neg e3] at h; cases h
    · rintro ⟨hz, rfl⟩
      refine ⟨?_, hz⟩
      rcases hz with rfl | rfl | rfl
      · simp [h2]
      · simp
      · simp
  have hb : ∀ w : PyVal K, IsInteger w z → ∀ l, w ≠ .arr l := by rintro w hw l rfl; exact hw
  have h0 : ∀ v : PyVal K, (∀ l, v ≠ .arr l) → ((yValue v = some z ∧ (z = -1 ∨ z = 0 ∨ z = 1)) ↔ IsOutcome v z) := by
    intro v hv
    have hno : ¬ ∃ w, v = .arr [w] ∧ IsInteger w z := fun ⟨w, h, _⟩ => hv _ h
    unfold IsOutcome
    rw [or_iff_left hno]
    cases v with
    | flt x => exact hf x
    | int i => simp only [yValue, IsInteger, Option.some.injEq]; exact and_comm
    | bool b => simp only [yValue, IsInteger, Option.some.injEq, eq_comm]; exact and_comm
    | arr l => exact absurd rfl (hv l)
    | _ => simp [yValue, IsInteger]
  have h1 : ∀ w : PyVal K, yValue (.arr [w]) = (match w with | .arr _ => none | w => yValue w) := by
    intro w; cases w <;> rfl
  cases v with
  | arr l =>
    match l with
    | [] => simp [yValue, IsOutcome, IsInteger]
    | [w] =>
      rw [h1]
      have hiff : IsOutcome (.arr [w]) z ↔ (z = -1 ∨ z = 0 ∨ z = 1) ∧ IsInteger w z := by
        unfold IsOutcome
        constructor
        · rintro ⟨a, h | ⟨w', h, h'⟩⟩
          · exact h.elim
          · cases h; exact ⟨a, h'⟩
        · rintro ⟨a, h⟩; exact ⟨a, Or.inr ⟨w, rfl, h⟩⟩
      rw [hiff]
      by_cases hw : ∃ l, w = .arr l
      · obtain ⟨l, rfl⟩ := hw
        simp [IsInteger]
      · have hw' : ∀ l, w ≠ .arr l := fun l h => hw ⟨l, h⟩
        have := h0 w hw'
        unfold IsOutcome at this
        rw [or_iff_left (a := IsInteger w z) (fun ⟨w', h, _⟩ => hw' _ h)] at this
        rw [← this]
        cases w <;> first | rfl | exact absurd rfl (hw' _)
    | _ :: _ :: _ => simp [yValue, IsOutcome, IsInteger]
  | _ => exact h0 _ (by intro l h; cases h)

/-- The data argument denotes these rows and names: an array with a list of strings, or a data frame, whatever the
argument `names` is. -/
def IsDataArg (d : DataArg K) (names : PyVal K) (X : List (List K)) (ns : List String) : Prop :=
  (d = .matrix X ∧ names = .list (ns.map .str)) ∨ d = .frame (ns.map .str) X

theorem asName_ok {v : PyVal K} {s : String} : asName v = .ok s ↔ v = .str s := by
  cases v <;> simp [asName]

theorem asNames_ok {v : PyVal K} {ns : List String} : asNames v = .ok ns ↔ v = .list (ns.map .str) := by
  cases v with
  | list l =>
    change l.mapM asName = .ok ns ↔ _
    rw [mapM_ok_iff]
    simp only [PyVal.list.injEq]
    constructor
    · intro h
      induction h with
      | nil => rfl
      | cons h1 _ ih => rw [asName_ok.mp h1, ih]; rfl
    · rintro rfl
      induction ns with
      | nil => exact .nil
      | cons s ns ih => exact .cons (asName_ok.mpr rfl) ih
  | _ => simp [asNames]

theorem printArg_ok {a : Option (PyVal K)} {v : PyVal K} :
    plainAttr "print_flag" (a.getD (.bool true)) = .ok v ↔ ∃ p, IsPrintArg a p ∧ v = .bool p := by
  unfold plainAttr
  rw [if_neg (by decide), if_pos rfl]
  cases a with
  | none => simp [IsPrintArg, eq_comm]
  | some a => cases a <;> simp [IsPrintArg, eq_comm]

theorem checkArg_ok {a : Option (PyVal K)} {v : PyVal K} :
    plainAttr "check_flag" (a.getD (.bool true)) = .ok v ↔ ∃ p, IsCheckArg a p ∧ v = .bool p := by
  unfold plainAttr
  rw [if_pos rfl]
  cases a with
  | none => simp [IsCheckArg, eq_comm]
  | some a => cases a <;> simp [IsCheckArg, eq_comm]

theorem dataArg_ok {d : DataArg K} {names v : PyVal K} {X : List (List K)} :
    d.rowsAndNames names = .ok (X, v) ↔ (d = .matrix X ∧ v = names) ∨ ∃ cols, d = .frame cols X ∧ v = .list cols := by
  cases d <;> simp [DataArg.rowsAndNames, eq_comm, and_comm]

theorem new_unaligned {X : List (List K)} {ns : List String} {custom : List (String × PyVal K)} {dflt st : PyVal K}
    {es : List (Elem K)}
    (h : (ns.zipIdx.mapM fun (p : String × ℕ) => mkColumn X custom dflt st p.2 p.1) = .ok es) :
    ∀ e ∈ es, e.aligned = false := by
  intro e he
  obtain ⟨p, -, hp⟩ := mapM_ok_mem h he
  obtain ⟨_, _, _, _, hm⟩ := mkColumn_spec hp
  have := (mkElem_spec hm).2.2.2.2.2.2.2.2.1
  unfold Elem.aligned
  rw [this]; rfl

/-- **C86**, arguments of the constructor of a set: it succeeds exactly when the data and names are as described, the
flags are legal and the constructor for plain arguments (described by C17) succeeds with the given or default bounds and
step type; and then it returns the set which that returns, with the two flags.  A data frame's columns take
precedence over `names`; the final internal check never fails, so `check_flag` has no other effect. -/
theorem C86_construct (d : DataArg K) (names y : PyVal K) (kw : SetKwargs K) :
    newActionSet d names y kw = .ok A ↔
    ∃ X ns yi p c A0, IsDataArg d names X ns ∧ IsOutcome y yi ∧ IsPrintArg kw.printFlag p ∧
      IsCheckArg kw.checkFlag c ∧
      mkActionSet X ns yi (kw.customBounds.getD []) (kw.defaultBounds.getD defaultBounds)
        (kw.defaultStepType.getD (.str "relative")) = .ok A0 ∧
      A = { A0 with extra := [("check_flag", .bool c), ("print_flag", .bool p)] } := by
  unfold newActionSet mkActionSet
  simp only [bind_ok_iff, pyAssert_ok_iff, decide_eq_true_eq, printArg_ok, checkArg_ok, asNames_ok]
  constructor
  · rintro ⟨⟨X, v⟩, h1, ns, h2, _, h3, _, h4, _, h5, pf, ⟨p, h6, rfl⟩, cf, ⟨c, h7, rfl⟩, es, h8, yi, h9, _, h10, _, -, hA⟩
    dsimp only at h2 h4 h5 h8
    have hy : yValue y = some yi := by
      unfold yArg at h9
      cases hv : yValue y with
      | none => rw [hv] at h9; cases h9
      | some i => rw [hv] at h9; rw [Except.ok.inj h9]
    refine ⟨X, ns, yi, p, c, _, ?_, yValue_iff.mp ⟨hy, h10⟩, h6, h7, ⟨(), h3, (), h4, (), h5, es, h8, (), h10, rfl⟩, (Except.ok.inj hA).symm⟩
    rw [dataArg_ok] at h1
    rcases h1 with ⟨rfl, rfl⟩ | ⟨cols, rfl, rfl⟩
    · exact Or.inl ⟨rfl, h2⟩
    · right; rw [PyVal.list.inj h2]
  · rintro ⟨X, ns, yi, p, c, A0, hd, hy, h6, h7, ⟨_, h3, _, h4, _, h5, es, h8, _, h10, h0⟩, rfl⟩
    have hA0 := Except.ok.inj h0
    subst hA0
    refine ⟨(X, .list (ns.map .str)), ?_, ns, rfl, (), h3, (), h4, (), h5, _, ⟨p, h6, rfl⟩, _, ⟨c, h7, rfl⟩, es, h8,
      yi, ?_, (), h10, (), ?_, rfl⟩
    · rw [dataArg_ok]
      rcases hd with ⟨rfl, rfl⟩ | rfl
      · exact Or.inl ⟨rfl, rfl⟩
      · exact Or.inr ⟨_, rfl, rfl⟩
    · unfold yArg; rw [(yValue_iff.mpr hy).1]
    · unfold ActionSet.checkRep
      dsimp only
      have : es.any Elem.aligned = false := by
        rw [Bool.eq_false_iff]
        intro hh
        obtain ⟨e, he, h⟩ := List.any_eq_true.mp hh
        rw [new_unaligned h8 e he] at h; cases h
      rw [this]; simp

/-- **C86**: a set created with any arguments is one of the sets all other properties speak about, and its flags read
as given. -/
theorem C86_constructed (d : DataArg K) (names y : PyVal K) (kw : SetKwargs K) (h : newActionSet d names y kw = .ok A) :
    A.Reachable ext ∧
    (∃ p, IsPrintArg kw.printFlag p ∧ A.getAttr "print_flag" = .ok (.bool p)) ∧
    (∃ c, IsCheckArg kw.checkFlag c ∧ A.getAttr "check_flag" = .ok (.bool c)) := by
  obtain ⟨X, ns, yi, p, c, A0, -, -, hp, hc, hm, rfl⟩ := (C86_construct d names y kw).mp h
  refine ⟨?_, ⟨p, hp, rfl⟩, ⟨c, hc, rfl⟩⟩
  have h0 : A0.extra = [] := by
    unfold mkActionSet at hm
    simp only [bind_ok_iff] at hm
    obtain ⟨_, -, _, -, _, -, es, -, _, -, hm⟩ := hm
    rw [← Except.ok.inj hm]
  have hr : A0.Reachable ext := .mk hm
  have h1 := ActionSet.Reachable.setAttr "check_flag" (.bool c) (ActionSet.Reachable.setAttr "print_flag" (.bool p) hr)
  have e1 : (A0.setAttr "print_flag" (.bool p)).1 = { A0 with extra := ("print_flag", .bool p) :: A0.extra } := rfl
  rw [e1] at h1
  have e2 : (({ A0 with extra := ("print_flag", .bool p) :: A0.extra } : ActionSet K).setAttr "check_flag" (.bool c)).1
      = { A0 with extra := ("check_flag", .bool c) :: ("print_flag", .bool p) :: A0.extra } := rfl
  rw [e2, h0] at h1
  exact h1

/-! ## Bounds given to the constructor -/

theorem mkColumn_congr {X : List (List K)} {c1 c2 : List (String × PyVal K)} {dflt st : PyVal K} {j : ℕ} {n : String}
    (h : c1.lookup n = c2.lookup n) : mkColumn X c1 dflt st j n = mkColumn X c2 dflt st j n := by
  unfold mkColumn
  rw [h]

/-- **C86**, custom bounds: only entries for names of the set matter; an entry for any other name (a misspelt one, for
instance) is ignored without a message. -/
theorem C86_custom (X : List (List K)) (ns : List String) (y : Int) {c1 c2 : List (String × PyVal K)} (dflt st : PyVal K)
    (h : ∀ n ∈ ns, c1.lookup n = c2.lookup n) : mkActionSet X ns y c1 dflt st = mkActionSet X ns y c2 dflt st := by
  have : (ns.zipIdx.mapM fun (p : String × ℕ) => mkColumn X c1 dflt st p.2 p.1)
      = (ns.zipIdx.mapM fun (p : String × ℕ) => mkColumn X c2 dflt st p.2 p.1) := by
    have key : ∀ l : List (String × ℕ), (∀ p ∈ l, p.1 ∈ ns) →
        (l.mapM fun (p : String × ℕ) => mkColumn X c1 dflt st p.2 p.1)
          = (l.mapM fun (p : String × ℕ) => mkColumn X c2 dflt st p.2 p.1) := by
      intro l
      induction l with
      | nil => intro _; rfl
      | cons p l ih =>
        intro hl
        rw [List.mapM_cons, List.mapM_cons, ih (fun q hq => hl q (List.mem_cons_of_mem _ hq)),
          mkColumn_congr (h p.1 (hl p List.mem_cons_self))]
    exact key _ fun p hp => List.fst_mem_of_mem_zipIdx hp
  unfold mkActionSet
  rw [this]

/-- **C86**, custom bounds are per feature: two sets made from the same data with custom bounds that agree for a feature
have the same element for it, whatever the custom bounds of the others; and the default bounds do not matter for a
feature with custom bounds or with only zeros and ones. -/
theorem C86_bounds (X : List (List K)) (ns : List String) {y y' : Int} {c1 c2 : List (String × PyVal K)}
    {d1 d2 st : PyVal K} (h1 : mkActionSet X ns y c1 d1 st = .ok A) (h2 : mkActionSet X ns y' c2 d2 st = .ok A')
    {j : ℕ} {n : String} (hn : ns[j]? = some n) (hc : c1.lookup n = c2.lookup n)
    (hd : d1 = d2 ∨ (c1.lookup n).isSome = true ∨ determineType (column X j) = .bool) :
    A.elems[j]? = A'.elems[j]? := by
  have e1 := mapM_ok_iff.mp (mkActionSet_spec h1).2.2.2.1
  have e2 := mapM_ok_iff.mp (mkActionSet_spec h2).2.2.2.1
  have hz : ns.zipIdx[j]? = some (n, j) := by simp [List.getElem?_zipIdx, hn]
  have hl1 : j < A.elems.length := by
    rw [← e1.length_eq]; exact (List.getElem?_eq_some_iff.mp hz).1
  have hl2 : j < A'.elems.length := by
    rw [← e2.length_eq]; exact (List.getElem?_eq_some_iff.mp hz).1
  have g1 := (List.forall₂_iff_get.mp e1).2 j (List.getElem?_eq_some_iff.mp hz).1 hl1
  have g2 := (List.forall₂_iff_get.mp e2).2 j (List.getElem?_eq_some_iff.mp hz).1 hl2
  have hg : ns.zipIdx.get ⟨j, (List.getElem?_eq_some_iff.mp hz).1⟩ = (n, j) := (List.getElem?_eq_some_iff.mp hz).2
  rw [hg] at g1 g2
  dsimp only at g1 g2
  have hcol : mkColumn X c1 d1 st j n = mkColumn X c2 d2 st j n := by
    rw [mkColumn_congr hc]
    rcases hd with rfl | hs | hb
    · rfl
    · unfold mkColumn
      rw [hc] at hs
      obtain ⟨v, hv⟩ := Option.isSome_iff_exists.mp hs
      rw [hv]; rfl
    · unfold mkColumn
      dsimp only
      rw [hb]
  rw [g1, g2] at hcol
  rw [List.getElem?_eq_getElem hl1, List.getElem?_eq_getElem hl2]
  exact congrArg some (Except.ok.inj hcol)

/-! ## Flags of a set -/

/-- **C86**, assigning the flags of a set: `print_flag` takes truth values and `None` (the default, `True`), `check_flag`
truth values only; anything else raises (an `AttributeError`, an `AssertionError`) and changes nothing.  An accepted
assignment changes that flag and nothing else. -/
theorem C86_flags (A : ActionSet K) (v : PyVal K) :
    (∀ p, IsPrintArg (some v) p → ∃ A', A.setAttr "print_flag" v = (A', .ok ()) ∧
      A'.getAttr "print_flag" = .ok (.bool p) ∧ A'.names = A.names ∧ A'.elems = A.elems ∧ A'.cons = A.cons ∧
      A'.yDesired = A.yDesired ∧ ∀ n, n ≠ "print_flag" → A'.getAttr n = A.getAttr n) ∧
    ((∀ p, ¬ IsPrintArg (some v) p) → A.setAttr "print_flag" v = (A, .error .attribute)) ∧
    (∀ c, IsCheckArg (some v) c → ∃ A', A.setAttr "check_flag" v = (A', .ok ()) ∧
      A'.getAttr "check_flag" = .ok (.bool c) ∧ A'.names = A.names ∧ A'.elems = A.elems ∧ A'.cons = A.cons ∧
      A'.yDesired = A.yDesired ∧ ∀ n, n ≠ "check_flag" → A'.getAttr n = A.getAttr n) ∧
    ((∀ c, ¬ IsCheckArg (some v) c) → A.setAttr "check_flag" v = (A, .error .assertion)) := by
  have hget : ∀ (a : String) (u : PyVal K) (n : String), n ≠ a →
      ({ A with extra := (a, u) :: A.extra } : ActionSet K).getAttr n = A.getAttr n := by
    intro a u n hn
    unfold ActionSet.getAttr ActionSet.alignmentKnown
    dsimp only
    rw [List.lookup_cons, show (n == a) = false by simpa using hn]
  refine ⟨?_, ?_, ?_, ?_⟩
  · intro p hp
    refine ⟨{ A with extra := ("print_flag", .bool p) :: A.extra }, ?_, rfl, rfl, rfl, rfl, rfl, hget _ _⟩
    cases v with
    | none => rw [show p = true from hp]; rfl
    | bool b => rw [show p = b from hp]; rfl
    | _ => exact hp.elim
  · intro hp
    cases v with
    | none => exact absurd rfl (hp true)
    | bool b => exact absurd rfl (hp b)
    | _ => rfl
  · intro p hp
    refine ⟨{ A with extra := ("check_flag", .bool p) :: A.extra }, ?_, rfl, rfl, rfl, rfl, rfl, hget _ _⟩
    cases v with
    | bool b => rw [show p = b from hp]; rfl
    | _ => exact hp.elim
  · intro hp
    cases v with
    | bool b => exact absurd rfl (hp b)
    | _ => rfl

/-- The stored value of a flag is a truth value. -/
def FlagsOk (A : ActionSet K) : Prop :=
  ∀ a, (a = "print_flag" ∨ a = "check_flag") → ∀ v, (a, v) ∈ A.extra → ∃ b, v = .bool b

theorem FlagsOk.setAttr (h : FlagsOk A) (attr : String) (v : PyVal K) : FlagsOk (A.setAttr attr v).1 := by
  have hY : ∀ {B C : ActionSet K} {y : Int}, FlagsOk B → B.setYDesired y = .ok C → FlagsOk C := by
    intro B C y hB hC
    rcases (setYDesired_ok hC).2 with ⟨-, rfl⟩ | ⟨-, -, rfl⟩ | ⟨-, -, rfl⟩
    · exact hB
    · exact hB
    · exact hB
  unfold ActionSet.setAttr
  by_cases h1 : hasElemAttr attr = true
  · rw [if_pos h1]
    cases expandValues A.names.length v with
    | error er => exact h
    | ok vs => exact h
  · rw [if_neg h1]
    by_cases h2 : attr = "y_desired"
    · rw [if_pos h2]
      cases yValue v with
      | none => exact h
      | some y =>
        dsimp only
        cases hs : A.setYDesired y with
        | error er => exact h
        | ok B => exact hY h hs
    · rw [if_neg h2]
      cases hp : plainAttr attr v with
      | error er => exact h
      | ok u =>
        dsimp only
        intro a ha w hw
        rcases List.mem_cons.mp hw with hw | hw
        · obtain ⟨rfl, rfl⟩ := Prod.mk.inj hw
          rcases ha with rfl | rfl
          · obtain ⟨p, -, rfl⟩ := printArg_ok (a := some v).mp hp
            exact ⟨p, rfl⟩
          · obtain ⟨p, -, rfl⟩ := checkArg_ok (a := some v).mp hp
            exact ⟨p, rfl⟩
        · exact h a ha w hw

theorem ActionSet.Reachable.flags (hA : A.Reachable ext) : FlagsOk A := by
  induction hA with
  | mk h =>
    unfold mkActionSet at h
    simp only [bind_ok_iff] at h
    obtain ⟨_, -, _, -, _, -, es, -, _, -, hm⟩ := h
    rw [← Except.ok.inj hm]
    intro a _ v hv
    cases hv
  | align _ h ih => rw [(setAlignment_ok h).2]; exact ih
  | setY _ h ih =>
    rcases (setYDesired_ok h).2 with ⟨-, rfl⟩ | ⟨-, -, rfl⟩ | ⟨-, -, rfl⟩
    · exact ih
    · exact ih
    · exact ih
  | addC _ h ih =>
    unfold ActionSet.addConstraint at h
    obtain ⟨⟨c, i⟩, -, h⟩ := bind_ok_iff.mp h
    cases h; exact ih
  | remC _ h ih =>
    unfold ActionSet.removeConstraint at h
    obtain ⟨c, -, h⟩ := bind_ok_iff.mp h
    cases h; exact ih
  | setAttr attr v _ ih => exact ih.setAttr attr v
  | setSlice idx attr v _ ih =>
    unfold ActionSet.setSliceAttr
    split
    · exact ih
    · split
      · dsimp only
        split
        · exact ih
        · exact ih
      · exact ih
  | setElem n attr v _ ih =>
    unfold ActionSet.setElemAttr
    split
    · exact ih
    · split
      · exact ih
      · exact ih
  | updateGrid _ _ _ ih => exact ih
  | percentile _ _ ih => exact ih
  | interp _ _ _ ih => exact ih
  | touch rc _ ih => exact ih
  | setItem n _ _ _ ih =>
    unfold ActionSet.setItem
    dsimp only
    split
    · exact ih
    · exact ih

theorem lookup_mem' {α : Type} {l : List (String × α)} {a : String} {v : α} (h : l.lookup a = some v) : (a, v) ∈ l := by
  induction l with
  | nil => cases h
  | cons p l ih =>
    obtain ⟨b, u⟩ := p
    rw [List.lookup_cons] at h
    by_cases hb : a = b
    · subst hb
      simp only [beq_self_eq_true] at h
      rw [Option.some.inj h]; exact List.mem_cons_self
    · rw [show (a == b) = false by simpa using hb] at h
      exact List.mem_cons_of_mem _ (ih h)

/-- **C86**: after any history the two flags read as truth values: the last ones accepted, `True` at first. -/
theorem C86_flags_read (hA : A.Reachable ext) :
    A.getAttr "print_flag" = .ok (.bool A.printFlag) ∧ A.getAttr "check_flag" = .ok (.bool A.checkFlag) := by
  have hf := hA.flags
  constructor
  · unfold ActionSet.getAttr ActionSet.printFlag
    rw [if_pos (Or.inr (by decide)), if_neg (by decide), if_neg (by decide)]
    cases h : A.extra.lookup "print_flag" with
    | none => rfl
    | some v => obtain ⟨b, rfl⟩ := hf _ (Or.inl rfl) v (lookup_mem' h); rfl
  · unfold ActionSet.getAttr ActionSet.checkFlag
    rw [if_pos (Or.inr (by decide)), if_neg (by decide), if_neg (by decide)]
    cases h : A.extra.lookup "check_flag" with
    | none => rfl
    | some v => obtain ⟨b, rfl⟩ := hf _ (Or.inr rfl) v (lookup_mem' h); rfl

/-- **C86**, printing: after any history `repr(A)` shows the table (C64) if `print_flag` is on and raises a `TypeError`
otherwise. -/
theorem C86_repr (hA : A.Reachable ext) :
    (A.printFlag = true → ∃ cols, A.tabulate .set = .ok cols ∧ A.repr = .ok cols) ∧
    (A.printFlag = false → A.repr = .error .type) := by
  constructor
  · intro h
    obtain ⟨cols, hc, -⟩ := C64_print hA
    exact ⟨cols, hc, by unfold ActionSet.repr; rw [h]; exact hc⟩
  · intro h
    unfold ActionSet.repr; rw [h]; rfl

/-- **C86** refuted: the invariant that the set's own check states (all features aligned, or none) can be broken by an
ordinary assignment to one feature, and nothing notices. -/
theorem C86_invariant_refuted : ∃ A : ActionSet ℚ, A.Reachable exExt ∧ A.checkRep = true ∧
    (A.setElemAttr "a" "flip_direction" (.int 1)).2 = .ok () ∧
    (A.setElemAttr "a" "flip_direction" (.int 1)).1.checkRep = false := by
  have key : ∃ A : ActionSet ℚ, mkActionSet [[0, 1], [1, 0]] ["a", "b"] 1 [] defaultBounds (.str "relative") = .ok A ∧
      A.checkRep = true ∧ (A.setElemAttr "a" "flip_direction" (.int 1)).2 = .ok () ∧
      (A.setElemAttr "a" "flip_direction" (.int 1)).1.checkRep = false := by decide +kernel
  obtain ⟨A, h1, h2⟩ := key
  exact ⟨A, .mk h1, h2⟩

/-- A data frame, with flags; the names given are ignored. -/
theorem C86_example : ∃ A : ActionSet ℚ,
    newActionSet (.frame [.str "a", .str "b"] [[0, 1], [1, 0]]) (.list [.str "x"]) (.int 0)
      { printFlag := some (.bool false), checkFlag := some (.bool false),
        customBounds := some [("c", .none)] } = .ok A ∧
    A.names = ["a", "b"] ∧ A.yDesired = -1 ∧ A.printFlag = false ∧ A.checkFlag = false ∧
    A.repr.toBool = false ∧ (newActionSet (.frame [.str "a", .str "b"] [[0, 1], [1, 0]]) .none (.int 0)
      { printFlag := some (.int 1) } : Except Err (ActionSet ℚ)).toBool = false := by
  decide +kernel

/-! ## Flags of a builder -/

/-- What a flag argument of a builder means: `None` is the default `True`. -/
def IsBuilderFlag : PyVal K → Bool → Prop
  | .none, p => p = true
  | .bool b, p => p = b
  | _, _ => False

theorem builderFlag_ok {v : PyVal K} {p : Bool} : builderFlag v = .ok p ↔ IsBuilderFlag v p := by
  cases v <;> simp [builderFlag, IsBuilderFlag, eq_comm]

theorem builderFlag_error {v : PyVal K} (h : ∀ p, ¬ IsBuilderFlag v p) : builderFlag v = .error .attribute := by
  cases v with
  | none => exact absurd rfl (h true)
  | bool b => exact absurd rfl (h b)
  | _ => rfl

theorem touch_known (rc : Bool) (h : A.alignmentKnown = true) : (A.touch ext rc).alignmentKnown = true := by
  unfold ActionSet.alignmentKnown ActionSet.touch at *
  rw [List.all_eq_true] at *
  intro e he
  obtain ⟨p, hp, rfl⟩ := List.mem_map.mp he
  have := h p.2 (List.of_mem_zip hp).2
  split
  · obtain ⟨c, hc⟩ := fillCache_eq ext p.2
    rw [hc]; exact this
  · exact this

variable {s : Installed} {solver ct : Option String} {kw : ClfKwargs K} {a : AnyBuilder K}

theorem checkRep_setX (h0 : a.b.checkRep = true) {a1 : AnyBuilder K} {x : List K}
    (h : a.setX ext x = (a1, .ok ())) : a1.b.checkRep = true := by
  have key : ∃ m feats, x.length = a.b.coefs.length ∧
      a1.b = { a.b with x := some x, aset := a.b.aset.touch ext true, mip := some m, feats := feats, sol := .unknown } := by
    unfold AnyBuilder.setX at h
    by_cases hv : a.valid = true
    · rw [if_pos hv] at h
      obtain ⟨h1, h2⟩ := Prod.mk.inj h
      obtain ⟨feats, m, hl, -, -, hb⟩ := setX_ok (b := a.b) (b1 := (a.b.setX ext x).1) (x := x) (ext := ext)
        (by rw [← h2])
      exact ⟨m, feats, hl, by rw [← h1]; exact hb⟩
    · rw [if_neg hv] at h
      obtain ⟨h1, h2⟩ := Prod.mk.inj h
      unfold Builder.setXUnpriced at h1 h2
      by_cases hl : x.length ≠ a.b.coefs.length
      · rw [if_pos hl] at h2; cases h2
      · rw [if_neg hl] at h1 h2
        dsimp only at h1 h2
        cases hb : ({ a.b with x := some x } : Builder K).buildInfo ext x with
        | error er => rw [hb] at h2; cases h2
        | ok feats =>
          rw [hb] at h1 h2
          dsimp only at h1 h2
          cases hm : buildUnpriced a.b.backend
            (({ a.b with x := some x, aset := a.b.aset.touch ext true } : Builder K).buildArgs x feats) with
          | error er => rw [hm] at h2; cases h2
          | ok m =>
            rw [hm] at h1
            dsimp only at h1
            exact ⟨m, feats, not_not.mp hl, by rw [← h1]⟩
  obtain ⟨m, feats, hl, hb⟩ := key
  rw [hb]
  unfold Builder.checkRep at *
  simp only [Bool.and_eq_true, decide_eq_true_eq] at h0 ⊢
  obtain ⟨⟨⟨g1, -⟩, g3⟩, g4⟩ := h0
  exact ⟨⟨⟨g1, hl.symm⟩, touch_known true g3⟩, g4⟩

/-- **C86**, builders: the final internal check of the constructor never fails. -/
theorem C86_builder_check (hA : A.Reachable ext) {x : Option (List K)}
    (h : construct ext s solver ct kw A x = (A', .ok a)) : a.b.checkRep = true := by
  have h0 : ∀ {A1 : ActionSet K} {a0 : AnyBuilder K}, construct ext s solver ct kw A none = (A1, .ok a0) →
      a0.b.checkRep = true := by
    intro A1 a0 h0
    obtain ⟨-, -, -, -, -, c1, -, -, c2, c3, c4, -, c5, c6, c7, c8, c9⟩ := C74_construct hA h0
    unfold Builder.checkRep
    rw [c4, c5]
    simp only [Bool.and_eq_true, decide_eq_true_eq, and_true]
    have hlen : a0.b.coefs.length = A1.names.length := by
      rw [← c5]; exact c9.ok.coefs
    refine ⟨⟨hlen, c6⟩, Nat.zero_le _, by rw [c2]; exact Nat.zero_le _, ?_⟩
    rw [c3, c1]
    unfold numActionable
    refine List.countP_le_length.trans ?_
    rw [hA.wf.length]
  cases x with
  | none => exact h0 h
  | some x =>
    rw [C74_point] at h
    cases hc : construct ext s solver ct kw A none with
    | mk A1 r =>
      rw [hc] at h
      cases r with
      | error er => cases h
      | ok a0 =>
        dsimp only at h
        obtain ⟨-, h2⟩ := Prod.mk.inj h
        cases hx : (a0.setX ext x).2 with
        | error er => rw [hx] at h2; cases h2
        | ok u =>
          rw [hx] at h2
          have := Except.ok.inj h2
          subst this
          exact checkRep_setX (h0 hc) (a := a0) (x := x) (by rw [← hx])

/-- **C86**, flags of a builder: both take truth values and `None` (the default, `True`).  The constructor with flags
succeeds exactly when they are legal and the constructor without them (C74) does, with the same builder. -/
theorem C86_builder (hA : A.Reachable ext) (x : Option (List K)) (pf cf : PyVal K) (p c : Bool) :
    constructFlags ext s solver ct kw A x pf cf = (A', .ok (a, p, c)) ↔
      construct ext s solver ct kw A x = (A', .ok a) ∧ IsBuilderFlag pf p ∧ IsBuilderFlag cf c := by
  unfold constructFlags
  have hn : ∀ {A1 : ActionSet K} {er : Err}, construct ext s solver ct kw A none = (A1, .error er) →
      construct ext s solver ct kw A x = (A1, .error er) := by
    intro A1 er h
    cases x with
    | none => exact h
    | some x => rw [C74_point, h]
  cases hc : construct ext s solver ct kw A none with
  | mk A1 r =>
    cases r with
    | error er =>
      dsimp only
      rw [hn hc]
      simp
    | ok a0 =>
      dsimp only
      cases hp : builderFlag pf with
      | error er =>
        dsimp only
        constructor
        · intro h; cases h
        · rintro ⟨-, h, -⟩; rw [builderFlag_ok.mpr h] at hp; cases hp
      | ok p' =>
        dsimp only
        cases hf : builderFlag cf with
        | error er =>
          dsimp only
          constructor
          · intro h; cases h
          · rintro ⟨-, -, h⟩; rw [builderFlag_ok.mpr h] at hf; cases hf
        | ok c' =>
          dsimp only
          rw [← builderFlag_ok, ← builderFlag_ok, hp, hf]
          cases hx : construct ext s solver ct kw A x with
          | mk A2 r =>
            cases r with
            | error er => simp
            | ok a2 =>
              dsimp only
              rw [C86_builder_check hA hx]
              simp [and_assoc]

/-- **C86**, refused flags: anything else raises `AttributeError`, after the solver, the classifier and the number of coefficients
have been checked and the action set has been aligned. -/
theorem C86_builder_flags {a0 : AnyBuilder K} (h : construct ext s solver ct kw A none = (A', .ok a0))
    (x : Option (List K)) {pf cf : PyVal K} (hf : ¬ ((∃ p, IsBuilderFlag pf p) ∧ ∃ c, IsBuilderFlag cf c)) :
    constructFlags ext s solver ct kw A x pf cf = (A', .error .attribute) := by
  have herr : ∀ {v : PyVal K} {e : Err}, builderFlag v = .error e → e = .attribute := by
    intro v e hv
    cases v <;> simp [builderFlag] at hv <;> exact hv.symm
  unfold constructFlags
  rw [h]
  dsimp only
  cases hp : builderFlag pf with
  | error er => rw [herr hp]
  | ok p =>
    dsimp only
    cases hc : builderFlag cf with
    | error er => rw [herr hc]
    | ok c => exact absurd ⟨⟨p, builderFlag_ok.mp hp⟩, c, builderFlag_ok.mp hc⟩ hf

/-- **C86** refuted: illegal flags are noticed only after the action set has been aligned with the classifier. -/
theorem C86_builder_refuted : ∃ A A' : ActionSet ℚ, A.Reachable exExt ∧ A.alignmentKnown = false ∧
    constructFlags exExt ⟨true, true⟩ none none { coefficients := some [1] } A none (.int 1) .none
      = (A', .error .attribute) ∧ A'.alignmentKnown = true := by
  have key : ∃ A : ActionSet ℚ, mkActionSet [[0], [1]] ["a"] 1 [] defaultBounds (.str "relative") = .ok A ∧
      A.alignmentKnown = false ∧
      (constructFlags exExt ⟨true, true⟩ none none { coefficients := some [1] } A none (.int 1) .none).2.map (fun _ => ())
        = .error .attribute ∧
      (constructFlags exExt ⟨true, true⟩ none none { coefficients := some [1] } A none (.int 1) .none).1.alignmentKnown
        = true := by decide +kernel
  obtain ⟨A, h1, h2, h3, h4⟩ := key
  refine ⟨A, _, .mk h1, h2, Prod.ext rfl ?_, h4⟩
  cases h : (constructFlags exExt ⟨true, true⟩ none none { coefficients := some [1] } A none (.int 1) .none).2 with
  | error e => rw [h] at h3; exact congrArg _ (Except.error.inj h3)
  | ok a => rw [h] at h3; cases h3

end Recourse
