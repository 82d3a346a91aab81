import Verif.Props.Cplex

/-!
# C99: adding variables to a CPLEX program
-/

set_option linter.unusedSectionVars false

namespace Recourse

variable {K : Type} [Field K] [LinearOrder K] [IsStrictOrderedRing K] [FloorRing K]

variable {c c' : Cpx K}

/-- What an argument `v` (objective, upper or lower bounds) gives to variable `i` of `n`: a number is for all of them, a list of `n` numbers
or an array of `n` floats has one for each. -/
def Gives (v : PyVal K) (n i : ℕ) (x : K) : Prop :=
  IsNum v x ∨ (∃ l w, v = .list l ∧ l.length = n ∧ l[i]? = some w ∧ IsNum w x) ∨ ∃ l, v = .arr l ∧ l.length = n ∧ l[i]? = some (.flt x)

/-- The type given to variable `i` of `n`: one character for all of them, a list of `n` strings, or a string of `n` characters. -/
def GivesType (v : PyVal K) (n i : ℕ) (t : String) : Prop :=
  (v = .str t ∧ t.length = 1) ∨ (∃ l, v = .list l ∧ l.length = n ∧ l[i]? = some (.str t)) ∨
    ∃ s ch, v = .str s ∧ 2 ≤ n ∧ s.length = n ∧ s.toList[i]? = some ch ∧ t = String.singleton ch

theorem cpxFloat_num {v : PyVal K} {x : K} (h : IsNum v x) : cpxFloat v = .ok x := by
  cases v with
  | flt y => cases h; rfl
  | int i => cases h; rfl
  | bool b => have : x = if b then 1 else 0 := h
              rw [this]; rfl
  | _ => exact h.elim

theorem mapM_each {α β ε : Type} {f : α → Except ε β} {l : List α} (h : ∀ a ∈ l, ∃ b, f a = .ok b) :
    ∃ r, l.mapM f = .ok r ∧ r.length = l.length ∧ ∀ (i : ℕ) a, l[i]? = some a → ∃ b, r[i]? = some b ∧ f a = .ok b := by
  induction l with
  | nil => exact ⟨[], rfl, rfl, fun i a h => by simp at h⟩
  | cons a l ih =>
    obtain ⟨b, hb⟩ := h a List.mem_cons_self
    obtain ⟨r, h1, h2, h3⟩ := ih fun x hx => h x (List.mem_cons_of_mem _ hx)
    refine ⟨b :: r, ?_, by simp [h2], ?_⟩
    · rw [mapM_ok_iff] at h1 ⊢
      exact .cons hb h1
    · intro i x hx
      cases i with
      | zero => simp at hx; subst hx; exact ⟨b, rfl, hb⟩
      | succ i => simp at hx ⊢; exact h3 i x hx

theorem conv_many {v : PyVal K} {n : ℕ} (hn : 0 < n) (h : ∀ i < n, ∃ x, Gives v n i x) :
    ∃ l, cpxMany n v = .ok l ∧ l.length = n ∧ ∀ i < n, ∃ x, l[i]? = some (.flt x) ∧ Gives v n i x := by
  obtain ⟨x0, h0⟩ := h 0 hn
  rcases h0 with h0 | ⟨l, w, rfl, hl, -, -⟩ | ⟨l, rfl, hl, -⟩
  · refine ⟨List.replicate n (.flt x0), ?_, by simp, fun i hi => ⟨x0, by simp [hi], Or.inl h0⟩⟩
    have hf := cpxFloat_num h0
    cases v with
    | flt y => unfold cpxMany; dsimp only; rw [hf]; rfl
    | int y => unfold cpxMany; dsimp only; rw [hf]; rfl
    | bool y => unfold cpxMany; dsimp only; rw [hf]; rfl
    | _ => exact h0.elim
  · have hnum : ∀ w ∈ l, ∃ x, IsNum w x := by
      intro w hw
      obtain ⟨i, hi⟩ := List.mem_iff_getElem?.mp hw
      have hin : i < n := by
        rw [← hl]
        exact (List.getElem?_eq_some_iff.mp hi).1
      obtain ⟨x, hx | ⟨l', w', e, -, hw', hx⟩ | ⟨l', e, -⟩⟩ := h i hin
      · exact hx.elim
      · cases e
        rw [hi] at hw'; cases hw'
        exact ⟨x, hx⟩
      · cases e
    obtain ⟨r, h1, h2, h3⟩ := mapM_each (f := cpxFloat) (l := l) fun w hw => by
      obtain ⟨x, hx⟩ := hnum w hw
      exact ⟨x, cpxFloat_num hx⟩
    refine ⟨r.map .flt, ?_, by simp [h2, hl], fun i hi => ?_⟩
    · unfold cpxMany
      dsimp only
      rw [if_pos hl, h1]; rfl
    · have hil : i < l.length := by rw [hl]; exact hi
      have hw : l[i]? = some l[i] := List.getElem?_eq_getElem hil
      obtain ⟨x, hx⟩ := hnum l[i] (List.getElem_mem hil)
      obtain ⟨b, hb1, hb2⟩ := h3 i _ hw
      rw [cpxFloat_num hx] at hb2; cases hb2
      exact ⟨x, by rw [List.getElem?_map, hb1]; rfl, Or.inr (Or.inl ⟨l, l[i], rfl, hl, hw, hx⟩)⟩
  · refine ⟨l, rfl, hl, fun i hi => ?_⟩
    obtain ⟨x, hx | ⟨l', w', e, -⟩ | ⟨l', e, hl', hx⟩⟩ := h i hi
    · exact hx.elim
    · cases e
    · cases e
      exact ⟨x, hx, Or.inr (Or.inr ⟨l, rfl, hl, hx⟩)⟩

theorem conv_manyLb {v : PyVal K} {n m : ℕ} (hn : 0 < n) (h : ∀ i < n, ∃ x, Gives v n i x) :
    cpxManyLb n m v = cpxMany n v := by
  obtain ⟨x0, h0⟩ := h 0 hn
  rcases h0 with h0 | ⟨l, w, rfl, hl, -, -⟩ | ⟨l, rfl, hl, -⟩
  · cases v with
    | flt y => rfl
    | int y => rfl
    | bool y => rfl
    | _ => exact h0.elim
  · unfold cpxManyLb cpxMany
    dsimp only
    rw [if_pos hl, if_pos hl]
  · rfl

theorem conv_one {v : PyVal K} (h : ∀ i < 1, ∃ x, Gives v 1 i x) :
    ∃ l, cpxOne v = .ok l ∧ l.length = 1 ∧ ∀ i < 1, ∃ x, l[i]? = some (.flt x) ∧ Gives v 1 i x := by
  obtain ⟨x0, h0⟩ := h 0 one_pos
  have fin : ∀ l, cpxOne v = .ok l → l = [.flt x0] → ∃ l, cpxOne v = .ok l ∧ l.length = 1 ∧
      ∀ i < 1, ∃ x, l[i]? = some (.flt x) ∧ Gives v 1 i x := by
    rintro l hl rfl
    refine ⟨_, hl, rfl, fun i hi => ?_⟩
    have : i = 0 := by omega
    subst this
    exact ⟨x0, rfl, h0⟩
  rcases h0 with h0 | ⟨l, w, rfl, hl, hw, hx⟩ | ⟨l, rfl, hl, hx⟩
  · have hf := cpxFloat_num h0
    cases v with
    | flt y => exact fin [.flt x0] (by unfold cpxOne; dsimp only; rw [hf]; rfl) rfl
    | int y => exact fin [.flt x0] (by unfold cpxOne; dsimp only; rw [hf]; rfl) rfl
    | bool y => exact fin [.flt x0] (by unfold cpxOne; dsimp only; rw [hf]; rfl) rfl
    | _ => exact h0.elim
  · cases l with
    | nil => simp at hl
    | cons u l =>
      simp at hw; subst hw
      exact fin [.flt x0] (by unfold cpxOne; dsimp only; rw [cpxFloat_num hx]; rfl) rfl
  · obtain ⟨y, rfl⟩ := List.length_eq_one_iff.mp hl
    simp at hx; subst hx
    exact fin [.flt x0] rfl rfl

theorem cpxArg_ok {v : PyVal K} {n : ℕ} (hn : 0 < n) (h : ∀ i < n, ∃ x, Gives v n i x) :
    ∃ l, cpxArg n v = .ok l ∧ l.length = n ∧ ∀ i < n, ∃ x, l[i]? = some (.flt x) ∧ Gives v n i x := by
  unfold cpxArg
  by_cases h1 : n = 1
  · subst h1; rw [if_pos rfl]; exact conv_one h
  · rw [if_neg h1]; exact conv_many hn h

theorem conv_types {v : PyVal K} {n : ℕ} (hn : 0 < n) (h : ∀ i < n, ∃ t, GivesType v n i t) :
    ∃ l, cpxArgType n v = .ok l ∧ l.length = n ∧
      ∀ i < n, ∃ t, l[i]? = some (.str t) ∧ GivesType v n i t := by
  unfold cpxArgType
  obtain ⟨t0, h0⟩ := h 0 hn
  rcases h0 with ⟨rfl, ht⟩ | ⟨l, rfl, hl, -⟩ | ⟨s, ch0, rfl, h2, hs, -, -⟩
  · refine ⟨List.replicate n (.str t0), ?_, by simp, fun i hi => ⟨t0, by simp [hi], Or.inl ⟨rfl, ht⟩⟩⟩
    by_cases h1 : n = 1
    · subst h1; rfl
    · rw [if_neg h1]; unfold cpxTypes; dsimp only; rw [if_pos ht]
  · refine ⟨l, ?_, hl, fun i hi => ?_⟩
    · by_cases h1 : n = 1
      · rw [if_pos h1]; rfl
      · rw [if_neg h1]; rfl
    · obtain ⟨t, ⟨e, -⟩ | ⟨l', e, -, ht⟩ | ⟨s, ch, e, -⟩⟩ := h i hi
      · cases e
      · cases e
        exact ⟨t, ht, Or.inr (Or.inl ⟨l, rfl, hl, ht⟩)⟩
      · cases e
  · refine ⟨s.toList.map fun ch => .str (String.singleton ch), ?_, by rw [List.length_map, String.length_toList, hs], fun i hi => ?_⟩
    · rw [if_neg (by omega)]; unfold cpxTypes; dsimp only; rw [if_neg (by omega), if_pos hs]
    · have hi' : i < s.toList.length := by rw [String.length_toList, hs]; exact hi
      have hg : s.toList[i]? = some s.toList[i] := List.getElem?_eq_getElem hi'
      exact ⟨String.singleton s.toList[i], by rw [List.getElem?_map, hg]; rfl, Or.inr (Or.inr ⟨s, _, rfl, h2, hs, hg, rfl⟩)⟩

/-- Whether variable `v` is what the arguments give to variable `i` of `n`: its name, objective coefficient, type, and its bounds, unless all the
new variables are binary: then 0 and 1. -/
def IsAdded (ns : List String) (obj ub lb vtype : PyVal K) (i : ℕ) (v : CpxVar K) : Prop :=
  ns[i]? = some v.name ∧ Gives obj ns.length i v.obj ∧ GivesType vtype ns.length i v.vtype ∧
  ((∀ j < ns.length, GivesType vtype ns.length j "B") → v.lb = 0 ∧ v.ub = 1) ∧
  (¬ (∀ j < ns.length, GivesType vtype ns.length j "B") → Gives lb ns.length i v.lb ∧ Gives ub ns.length i v.ub)

theorem GivesType.unique {v : PyVal K} {n i : ℕ} {s t : String} (h1 : GivesType v n i s) (h2 : GivesType v n i t) : s = t := by
  rcases h1 with ⟨rfl, h⟩ | ⟨l, rfl, -, h1⟩ | ⟨u, ch, rfl, h, hu, hg, rfl⟩
  · rcases h2 with ⟨h', -⟩ | ⟨l, h', -⟩ | ⟨u, ch, h', hn, hu, -⟩
    · cases h'; rfl
    · cases h'
    · cases h'; omega
  · rcases h2 with ⟨h, -⟩ | ⟨l, h, -, h2⟩ | ⟨u, ch, h, -⟩ <;> cases h
    rw [h1] at h2; cases h2; rfl
  · rcases h2 with ⟨h', hl⟩ | ⟨l, h', -⟩ | ⟨u', ch', h', -, -, hg', rfl⟩
    · cases h'; omega
    · cases h'
    · cases h'
      rw [hg] at hg'; cases hg'; rfl

/-- **C99**: for one or more names, and numbers (for all variables) or lists of numbers (one for each) (arrays: of floats) as objective and bounds, and one type or a
list or string of types, exactly these variables are added at the end of the program, in the order of the names, each with its own values; the
parameters stay.  If all are binary the bounds given are ignored. -/
theorem C99_add {name obj ub lb vtype : PyVal K} {ns : List String} (hne : ns ≠ [])
    (hname : name = .list (ns.map .str) ∨ name = .arr (ns.map .str) ∨ ∃ s, ns = [s] ∧ name = .str s)
    (hobj : ∀ i < ns.length, ∃ x, Gives obj ns.length i x) (hub : ∀ i < ns.length, ∃ x, Gives ub ns.length i x)
    (hlb : ∀ i < ns.length, ∃ x, Gives lb ns.length i x) (ht : ∀ i < ns.length, ∃ t, GivesType vtype ns.length i t) :
    ∃ c' vs, addVariableCpx c name obj ub lb vtype = .ok c' ∧ c'.vars = c.vars ++ vs ∧ vs.length = ns.length ∧
      (∀ (i : ℕ) v, vs[i]? = some v → IsAdded ns obj ub lb vtype i v) ∧ c'.param = c.param ∧ c'.muted = c.muted := by
  have hn : 0 < ns.length := List.length_pos_iff.mpr hne
  have hnl : cpxNameList name = .ok (ns.map .str) := by
    rcases hname with rfl | rfl | ⟨s, rfl, rfl⟩ <;> rfl
  obtain ⟨lo, o1, o2, o3⟩ := cpxArg_ok hn hobj
  obtain ⟨lu, u1, u2, u3⟩ := cpxArg_ok hn hub
  obtain ⟨ll, l1, l2, l3⟩ := cpxArg_ok hn hlb
  obtain ⟨lt, t1, t2, t3⟩ := conv_types hn ht
  have hll : cpxArgLb ns.length lu.length lb = .ok ll := by
    unfold cpxArgLb
    rw [conv_manyLb hn hlb]; exact l1
  obtain ⟨vs, v1, v2, v3⟩ := mapM_each (f := fun (i : ℕ) => (do
      let nm ← cpxStrAt (ns.map (PyVal.str (K := K))) i
      let o ← cpxFltAt lo i
      let u ← cpxFltAt lu i
      let l ← cpxFltAt ll i
      let t ← cpxStrAt lt i
      .ok ({ name := nm, obj := o, lb := l, ub := u, vtype := t } : CpxVar K) : Except Err (CpxVar K))) (l := List.range ns.length) (by
    intro i hi
    have hi := List.mem_range.mp hi
    obtain ⟨x1, a1, -⟩ := o3 i hi
    obtain ⟨x2, a2, -⟩ := u3 i hi
    obtain ⟨x3, a3, -⟩ := l3 i hi
    obtain ⟨x4, a4, -⟩ := t3 i hi
    have a0 : (ns.map (PyVal.str (K := K)))[i]? = some (.str ns[i]) := by
      rw [List.getElem?_map, List.getElem?_eq_getElem hi]; rfl
    refine ⟨{ name := ns[i], obj := x1, lb := x3, ub := x2, vtype := x4 }, ?_⟩
    unfold cpxStrAt cpxFltAt
    rw [a0, a1, a2, a3, a4]; rfl)
  have v2' : vs.length = ns.length := by rw [v2, List.length_range]
  have hv : ∀ (i : ℕ) v, vs[i]? = some v → ns[i]? = some v.name ∧ Gives obj ns.length i v.obj ∧ Gives ub ns.length i v.ub ∧
      Gives lb ns.length i v.lb ∧ GivesType vtype ns.length i v.vtype := by
    intro i v hiv
    have hi : i < ns.length := by rw [← v2']; exact (List.getElem?_eq_some_iff.mp hiv).1
    obtain ⟨x1, a1, g1⟩ := o3 i hi
    obtain ⟨x2, a2, g2⟩ := u3 i hi
    obtain ⟨x3, a3, g3⟩ := l3 i hi
    obtain ⟨x4, a4, g4⟩ := t3 i hi
    have a0 : (ns.map (PyVal.str (K := K)))[i]? = some (.str ns[i]) := by
      rw [List.getElem?_map, List.getElem?_eq_getElem hi]; rfl
    obtain ⟨w, hw1, hw2⟩ := v3 i i (by rw [List.getElem?_range hi])
    rw [hiv] at hw1; cases hw1
    unfold cpxStrAt cpxFltAt at hw2
    rw [a0, a1, a2, a3, a4] at hw2
    have hw3 := Except.ok.inj hw2
    subst hw3
    exact ⟨List.getElem?_eq_getElem hi, g1, g2, g3, g4⟩
  have hcall : addVariableCpx c name obj ub lb vtype =
      (if vs.all (·.vtype == "B") then .ok { c with vars := c.vars ++ vs.map fun v => { v with lb := 0, ub := 1 } }
       else .ok { c with vars := c.vars ++ vs }) := by
    unfold addVariableCpx
    rw [hnl, ok_bind]
    dsimp only
    rw [List.length_map, o1, ok_bind, u1, ok_bind, hll, ok_bind, t1, ok_bind, v1, ok_bind, if_neg (by omega),
      if_pos ⟨o2, t2, Or.inr ⟨u2, l2⟩⟩]
  have hB : vs.all (·.vtype == "B") = true ↔ ∀ j < ns.length, GivesType vtype ns.length j "B" := by
    rw [List.all_eq_true]
    constructor
    · intro h j hj
      have hj' : j < vs.length := by rw [v2']; exact hj
      have := h vs[j] (List.getElem_mem hj')
      have e : vs[j].vtype = "B" := by simpa using this
      rw [← e]
      exact (hv j _ (List.getElem?_eq_getElem hj')).2.2.2.2
    · intro h v hvm
      obtain ⟨j, hj⟩ := List.mem_iff_getElem?.mp hvm
      have hjl : j < ns.length := by rw [← v2']; exact (List.getElem?_eq_some_iff.mp hj).1
      have := (hv j v hj).2.2.2.2.unique (h j hjl)
      simp [this]
  rw [hcall]
  by_cases hall : vs.all (·.vtype == "B") = true
  · rw [if_pos hall]
    refine ⟨_, vs.map fun v => { v with lb := 0, ub := 1 }, rfl, rfl, by rw [List.length_map, v2'], ?_, rfl, rfl⟩
    intro i v hiv
    rw [List.getElem?_map] at hiv
    cases hw : vs[i]? with
    | none => rw [hw] at hiv; cases hiv
    | some w =>
      rw [hw] at hiv
      have := Option.some.inj hiv
      subst this
      obtain ⟨a, b, -, -, d⟩ := hv i w hw
      exact ⟨a, b, d, fun _ => ⟨rfl, rfl⟩, fun h => absurd (hB.mp hall) h⟩
  · rw [if_neg hall]
    refine ⟨_, vs, rfl, rfl, v2', ?_, rfl, rfl⟩
    intro i v hiv
    obtain ⟨a, b, e, f, d⟩ := hv i v hiv
    exact ⟨a, b, d, fun h => absurd (hB.mpr h) hall, fun _ => ⟨f, e⟩⟩

/-- The full C99 is false: a list with one number is documented (by the code's own error message) to stand for all variables, but with two or more
names it raises a `TypeError` as objective or upper bound. -/
theorem C99_single_refuted (c : Cpx K) {ns : List String} (hn : 2 ≤ ns.length) (x : K) (ub lb vtype : PyVal K) :
    addVariableCpx c (.list (ns.map .str)) (.list [.flt x]) ub lb vtype = .error .type := by
  unfold addVariableCpx
  show (do let ns ← (Except.ok (ns.map PyVal.str) : Except Err (List (PyVal K))); _) = _
  rw [ok_bind]
  dsimp only
  unfold cpxArg
  rw [List.length_map, if_neg (by omega)]
  unfold cpxMany
  dsimp only
  rw [if_neg (by simp; omega)]
  rfl

/-- The full C99 is false: an array of integers as objective fails an assertion, a list of the same integers is accepted (`C99_add`). -/
theorem C99_array_refuted (c : Cpx K) {ns : List String} (hn : 2 ≤ ns.length) (l : List Int) (hl : l ≠ []) {ub lb vtype : PyVal K} {ubs lbs ts : List (PyVal K)}
    (hu : cpxArg ns.length ub = .ok ubs) (hb : cpxArgLb ns.length ubs.length lb = .ok lbs) (ht : cpxArgType ns.length vtype = .ok ts) :
    addVariableCpx c (.list (ns.map .str)) (.arr (l.map .int)) ub lb vtype = .error .assertion := by
  unfold addVariableCpx
  show (do let ns ← (Except.ok (ns.map PyVal.str) : Except Err (List (PyVal K))); _) = _
  rw [ok_bind]
  dsimp only
  have ho : cpxArg ns.length (.arr (l.map (PyVal.int (K := K)))) = .ok (l.map .int) := by
    unfold cpxArg
    rw [if_neg (by omega)]; rfl
  rw [List.length_map, ho, ok_bind, hu, ok_bind, hb, ok_bind, ht, ok_bind]
  obtain ⟨m, hm⟩ : ∃ m, ns.length = m + 1 := ⟨ns.length - 1, by omega⟩
  obtain ⟨a, l', rfl⟩ := List.exists_cons_of_ne_nil hl
  obtain ⟨s, ns', rfl⟩ := List.exists_cons_of_ne_nil (l := ns) (by rintro rfl; simp at hn)
  rw [List.length_cons, List.range_succ_eq_map, List.mapM_cons]
  rfl

example : addVariableCpx (newCpx exLib) (.list [.str "u", .str "v"]) (.arr [.int 1, .int 2]) (.flt 5) (.int (-1)) (.str "C") = .error .assertion :=
  C99_array_refuted (newCpx exLib) (ns := ["u", "v"]) (by decide) [1, 2] (by decide) (ubs := [.flt 5, .flt 5]) (lbs := [.flt (-1), .flt (-1)])
    (ts := [.str "C", .str "C"]) rfl (by show (_ : Except Err _) = _; simp [cpxArgLb, cpxManyLb, cpxFloat]) rfl

/-- **C99**, wrong lengths of the objective: for two or more names a list that has neither one number nor one for each raises a `ValueError`;
for one name an array raises a `TypeError` unless it has exactly one number. -/
theorem C99_lengths (c : Cpx K) (ub lb vtype : PyVal K) :
    (∀ (ns : List String) (l : List (PyVal K)), 2 ≤ ns.length → l.length ≠ ns.length → l.length ≠ 1 →
      addVariableCpx c (.list (ns.map .str)) (.list l) ub lb vtype = .error .value) ∧
    ∀ (s : String) (l : List (PyVal K)), l.length ≠ 1 → addVariableCpx c (.str s) (.arr l) ub lb vtype = .error .type := by
  constructor
  · intro ns l hn h1 h2
    unfold addVariableCpx
    show (do let ns ← (Except.ok (ns.map PyVal.str) : Except Err (List (PyVal K))); _) = _
    rw [ok_bind]
    dsimp only
    have : cpxArg (ns.map (PyVal.str (K := K))).length (.list l) = .error .value := by
      unfold cpxArg cpxMany
      rw [List.length_map, if_neg (by omega)]
      dsimp only
      rw [if_neg h1, if_neg h2]
    rw [this]; rfl
  · intro s l hl
    unfold addVariableCpx
    show (do let ns ← (Except.ok [PyVal.str s] : Except Err (List (PyVal K))); _) = _
    rw [ok_bind]
    dsimp only
    have : cpxArg [PyVal.str (K := K) s].length (.arr l) = .error .type := by
      match l, hl with
      | [], _ => rfl
      | a :: b :: l, _ => cases a <;> rfl
    rw [this]; rfl

/-- The full C99 is false: for one name a list of two or more numbers is not refused; all but the first are ignored. -/
theorem C99_ignored_refuted (c : Cpx K) (s : String) (x : K) (l : List (PyVal K)) (ub lb vtype : PyVal K) :
    addVariableCpx c (.str s) (.list (.flt x :: l)) ub lb vtype = addVariableCpx c (.str s) (.flt x) ub lb vtype := rfl

example : addVariableCpx (newCpx exLib) (.str "u") (.list [.flt 1, .flt 2]) (.flt 5) (.int 0) (.str "C") =
    addVariableCpx (newCpx exLib) (.str "u") (.flt 1) (.flt 5) (.int 0) (.str "C") := C99_ignored_refuted _ _ _ _ _ _ _

/-- Two names for one number of bounds, mixed arguments: a list for the objective, numbers for the bounds. -/
example : ∃ c' : Cpx ℚ, addVariableCpx (newCpx exLib) (.list [.str "u", .str "v"]) (.list [.flt 1, .int 2]) (.flt 5) (.int (-1)) (.str "C") = .ok c' ∧
    c'.vars = [⟨"u", 1, -1, 5, "C"⟩, ⟨"v", 2, -1, 5, "C"⟩] := ⟨_, rfl, by decide +kernel⟩

/-- An array of floats, and types as a string. -/
example : ∃ c' : Cpx ℚ, addVariableCpx (newCpx exLib) (.list [.str "u", .str "v"]) (.arr [.flt 1, .flt 2]) (.flt 5) (.int (-1)) (.str "CB") = .ok c' ∧
    c'.vars = [⟨"u", 1, -1, 5, "C"⟩, ⟨"v", 2, -1, 5, "B"⟩] := ⟨_, rfl, by decide +kernel⟩

/-- Binary variables: the bounds 3 and 7 are ignored. -/
example : ∃ c' : Cpx ℚ, addVariableCpx (newCpx exLib) (.str "u") (.flt 1) (.flt 7) (.flt 3) (.str "B") = .ok c' ∧
    c'.vars = [⟨"u", 1, 0, 1, "B"⟩] := ⟨_, rfl, by decide +kernel⟩

end Recourse
