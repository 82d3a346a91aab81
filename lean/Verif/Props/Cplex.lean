import Verif.Model.Cplex
import Verif.Lemmas.Except
import Mathlib.Data.Rat.Floor

/-!
# C97, C98: parameters of the CPLEX solver
-/

set_option linter.unusedSectionVars false

namespace Recourse

variable {K : Type} [Field K] [LinearOrder K] [IsStrictOrderedRing K] [FloorRing K]

variable {lib : CpxLib K} {param : List (String × PyVal K)} {c c' : Cpx K}

/-- What the entries of the dictionary of parameters are for: key, CPLEX parameter (the names in IBM's reference linked from
the comments in recourse/cplex_helper.py:125-249). -/
def paramMeaning : List (String × String) :=
  [("n_cores", "threads"), ("randomseed", "randomseed"), ("mipgap", "mip.tolerances.mipgap"),
    ("absmipgap", "mip.tolerances.absmipgap"), ("integrality_tolerance", "mip.tolerances.integrality"),
    ("mipemphasis", "emphasis.mip"), ("bound_strengthening", "preprocessing.boundstrength"), ("cover_cuts", "mip.cuts.covers"),
    ("zero_half_cuts", "mip.cuts.zerohalfcut"), ("mir_cuts", "mip.cuts.mircut"), ("implied_bound_cuts", "mip.cuts.implied"),
    ("locally_implied_bound_cuts", "mip.cuts.localimplied"), ("numerical_emphasis", "emphasis.numerical"),
    ("poolsize", "mip.pool.capacity"), ("poolreplace", "mip.pool.replace"), ("repairtries", "mip.limits.repairtries")]

/-- The keys that are read. -/
def usedKeys : List String := "display_cplex_progress" :: "time_limit" :: "node_limit" :: paramMeaning.map (·.1)

/-- The parameters that display progress. -/
def displayNames : List String := ["mip.display", "simplex.display", "paramdisplay"]

/-- A number: an integer, a float or a truth value. -/
def IsNum : PyVal K → K → Prop
  | .flt x, y => x = y
  | .int i, y => (i : K) = y
  | .bool b, y => y = if b then 1 else 0
  | _, _ => False

theorem cpxNum_iff {v : PyVal K} {x : K} : cpxNum v = some x ↔ IsNum v x := by
  cases v <;> simp [cpxNum, IsNum, eq_comm]

theorem all_cons_ok {f : CpxStep K} {fs : List (CpxStep K)} :
    CpxStep.all (f :: fs) c = (c', .ok ()) ↔ ∃ c1, f c = (c1, .ok ()) ∧ CpxStep.all fs c1 = (c', .ok ()) := by
  conv_lhs => unfold CpxStep.all
  rcases h : f c with ⟨c1, r⟩
  cases r with
  | error er => simp
  | ok u => cases u; simp

theorem all_nil_ok : CpxStep.all [] c = (c', .ok ()) ↔ c' = c := by
  unfold CpxStep.all
  simp [eq_comm]

theorem cpxPut_ok {n : String} {v : PyVal K} : cpxPut lib n v c = (c', .ok ()) ↔
    lib.accepts n v = true ∧ c' = { c with param := Function.update c.param n v } := by
  unfold cpxPut
  by_cases h : lib.accepts n v = true
  · rw [if_pos h]; simp [h, eq_comm]
  · rw [if_neg h]; simp [h]

theorem cpxPutKey_ok {n k : String} : cpxPutKey lib param n k c = (c', .ok ()) ↔
    ∃ v, param.lookup k = some v ∧ lib.accepts n v = true ∧ c' = { c with param := Function.update c.param n v } := by
  unfold cpxPutKey
  cases h : param.lookup k with
  | none => simp
  | some v => simp only [cpxPut_ok, Option.some.injEq, exists_eq_left']

theorem cpxMute_ok {b : Bool} : cpxMute b c = (c', .ok ()) ↔ c' = if b then { c with muted := true } else c := by
  unfold cpxMute; simp [eq_comm]

theorem setCpxDisplay_ok {m p l : Bool} : setCpxDisplay lib m p l c = (c', .ok ()) ↔
    lib.accepts "mip.display" (.bool m) = true ∧ lib.accepts "simplex.display" (.bool l) = true ∧
    lib.accepts "paramdisplay" (.bool p) = true ∧
    c' = { c with
      param := Function.update (Function.update (Function.update c.param "mip.display" (.bool m)) "simplex.display" (.bool l))
        "paramdisplay" (.bool p)
      muted := c.muted || !(m || l) } := by
  unfold setCpxDisplay
  simp only [all_cons_ok, all_nil_ok, cpxPut_ok, cpxMute_ok]
  constructor
  · rintro ⟨_, ⟨h1, rfl⟩, _, ⟨h2, rfl⟩, _, ⟨h3, rfl⟩, _, rfl, rfl⟩
    refine ⟨h1, h2, h3, ?_⟩
    cases hm : c.muted <;> cases m <;> cases l <;> simp [hm]
  · rintro ⟨h1, h2, h3, rfl⟩
    refine ⟨_, ⟨h1, rfl⟩, _, ⟨h2, rfl⟩, _, ⟨h3, rfl⟩, _, rfl, ?_⟩
    cases hm : c.muted <;> cases m <;> cases l <;> simp [hm]

theorem cpxLimit_ok {key : String} {d : K} {set : LimitReq K → CpxStep K} : cpxLimit param key d set c = (c', .ok ()) ↔
    ∃ v x, param.lookup key = some v ∧ IsNum v x ∧ ((x < d ∧ set (.num x) c = (c', .ok ())) ∨ (d ≤ x ∧ c' = c)) := by
  unfold cpxLimit
  cases h : param.lookup key with
  | none => simp
  | some v =>
    dsimp only
    cases hx : cpxNum v with
    | none =>
      have : ∀ x, ¬ IsNum v x := fun x hh => by rw [cpxNum_iff.mpr hh] at hx; cases hx
      simp [this]
    | some x =>
      dsimp only
      have hv := cpxNum_iff.mp hx
      have hu : ∀ y, IsNum v y → y = x := fun y hy => by rw [cpxNum_iff.mpr hy] at hx; exact Option.some.inj hx
      by_cases hd : x < d
      · rw [if_pos hd]
        constructor
        · intro h'; exact ⟨v, x, rfl, hv, Or.inl ⟨hd, h'⟩⟩
        · rintro ⟨v', y, hv', hy, h'⟩
          cases hv'
          rw [hu y hy] at h'
          rcases h' with ⟨-, h'⟩ | ⟨h', -⟩
          · exact h'
          · exact absurd hd (not_lt.mpr h')
      · rw [if_neg hd]
        constructor
        · intro h'; exact ⟨v, x, rfl, hv, Or.inr ⟨not_lt.mp hd, (Prod.mk.inj h').1.symm⟩⟩
        · rintro ⟨v', y, hv', hy, h'⟩
          cases hv'
          rw [hu y hy] at h'
          rcases h' with ⟨h', -⟩ | ⟨-, h'⟩
          · exact absurd h' hd
          · rw [h']

theorem setCpxTime_ok {x : K} : setCpxTime lib (.num x) c = (c', .ok ()) ↔
    0 ≤ min x lib.maxTime ∧ lib.accepts "timelimit" (.flt (min x lib.maxTime)) = true ∧
    c' = { c with param := Function.update c.param "timelimit" (.flt (min x lib.maxTime)) } := by
  unfold setCpxTime
  by_cases h : 0 ≤ min x lib.maxTime
  · dsimp only; rw [if_pos h, cpxPut_ok]; simp only [h, true_and]
  · dsimp only; rw [if_neg h]; simp only [h, false_and, Prod.mk.injEq, reduceCtorEq, and_false]

theorem setCpxNodes_ok {x : K} : setCpxNodes lib (.num x) c = (c', .ok ()) ↔
    0 ≤ min (trunc x) lib.maxNodes ∧ lib.accepts "mip.limits.nodes" (.flt (min (trunc x) lib.maxNodes)) = true ∧
    c' = { c with param := Function.update c.param "mip.limits.nodes" (.flt (min (trunc x) lib.maxNodes)) } := by
  unfold setCpxNodes
  by_cases h : 0 ≤ min (trunc x) lib.maxNodes
  · dsimp only; rw [if_pos h, cpxPut_ok]; simp only [h, true_and]
  · dsimp only; rw [if_neg h]; simp only [h, false_and, Prod.mk.injEq, reduceCtorEq, and_false]

theorem cpxQuiet_ok : cpxQuiet lib param c = (c', .ok ()) ↔ ∃ v, param.lookup "display_cplex_progress" = some v ∧
    ((v = .bool false ∧ setCpxDisplay lib false false false c = (c', .ok ())) ∨ (v ≠ .bool false ∧ c' = c)) := by
  unfold cpxQuiet
  cases h : param.lookup "display_cplex_progress" with
  | none => simp
  | some v => cases v with
    | bool b => cases b <;> simp [eq_comm]
    | _ => simp [eq_comm]

/-- The limit `name` after setting the parameters: the number under `key`, rounded by `f` and at most `mx`, if it is below the default;
else what it was. -/
def LimitSet (param : List (String × PyVal K)) (key name : String) (dflt mx : K) (f : K → K) (c c' : Cpx K) : Prop :=
  ∃ v x, param.lookup key = some v ∧ IsNum v x ∧
    (x < dflt → 0 ≤ min (f x) mx ∧ c'.param name = .flt (min (f x) mx)) ∧ (dflt ≤ x → c'.param name = c.param name)

/-- Where a value comes from: the dictionary or the code. -/
inductive Src (K : Type)
  | key (k : String)
  | const (v : PyVal K)

/-- The value, if there is one. -/
def Src.fetch (param : List (String × PyVal K)) : Src K → Option (PyVal K)
  | .key k => param.lookup k
  | .const v => some v

/-- Setting a parameter to such a value. -/
def putSrc (lib : CpxLib K) (param : List (String × PyVal K)) (p : String × Src K) : CpxStep K :=
  match p.2 with
  | .key k => cpxPutKey lib param p.1 k
  | .const v => cpxPut lib p.1 v

theorem putSrc_ok {p : String × Src K} : putSrc lib param p c = (c', .ok ()) ↔
    ∃ v, p.2.fetch param = some v ∧ lib.accepts p.1 v = true ∧ c' = { c with param := Function.update c.param p.1 v } := by
  unfold putSrc
  rcases p with ⟨n, s⟩
  cases s with
  | key k => exact cpxPutKey_ok
  | const v => dsimp only [Src.fetch]; rw [cpxPut_ok]; simp

theorem all_append_ok {fs gs : List (CpxStep K)} :
    CpxStep.all (fs ++ gs) c = (c', .ok ()) ↔ ∃ c1, CpxStep.all fs c = (c1, .ok ()) ∧ CpxStep.all gs c1 = (c', .ok ()) := by
  induction fs generalizing c with
  | nil => simp only [List.nil_append, all_nil_ok, exists_eq_left]
  | cons f fs ih =>
    simp only [List.cons_append, all_cons_ok, ih]
    constructor
    · rintro ⟨a, h1, b, h2, h3⟩; exact ⟨b, ⟨a, h1, h2⟩, h3⟩
    · rintro ⟨b, ⟨a, h1, h2⟩, h3⟩; exact ⟨a, h1, b, h2, h3⟩

theorem all_put_ok {l : List (String × Src K)} (hl : (l.map (·.1)).Nodup) :
    CpxStep.all (l.map (putSrc lib param)) c = (c', .ok ()) ↔
    (∀ p ∈ l, p.2.fetch param = some (c'.param p.1) ∧ lib.accepts p.1 (c'.param p.1) = true) ∧
    (∀ n, n ∉ l.map (·.1) → c'.param n = c.param n) ∧ c'.vars = c.vars ∧ c'.muted = c.muted := by
  induction l generalizing c with
  | nil =>
    simp only [List.map_nil, all_nil_ok, List.not_mem_nil, not_false_eq_true, forall_const, false_implies, implies_true, true_and]
    constructor
    · rintro rfl; exact ⟨fun _ => rfl, rfl, rfl⟩
    · rintro ⟨h1, h2, h3⟩
      cases c; cases c'
      simp only at h1 h2 h3
      subst h2 h3
      rw [funext h1]
  | cons p l ih =>
    simp only [List.map_cons, List.nodup_cons] at hl
    simp only [List.map_cons, all_cons_ok, putSrc_ok]
    constructor
    · rintro ⟨c1, ⟨v, h1, h2, rfl⟩, h3⟩
      obtain ⟨a, b, d, e⟩ := (ih hl.2).mp h3
      have hp : c'.param p.1 = v := by rw [b p.1 hl.1]; simp
      refine ⟨?_, ?_, d, e⟩
      · intro q hq
        rcases List.mem_cons.mp hq with rfl | hq
        · rw [hp]; exact ⟨h1, h2⟩
        · exact a q hq
      · intro n hn
        simp only [List.mem_cons, not_or] at hn
        rw [b n hn.2]
        exact Function.update_of_ne hn.1 _ _
    · rintro ⟨a, b, d, e⟩
      obtain ⟨h1, h2⟩ := a p List.mem_cons_self
      refine ⟨_, ⟨c'.param p.1, h1, h2, rfl⟩, (ih hl.2).mpr ⟨fun q hq => a q (List.mem_cons_of_mem _ hq), ?_, d, e⟩⟩
      intro n hn
      dsimp only
      by_cases hnp : n = p.1
      · subst hnp; simp
      · rw [Function.update_of_ne hnp]
        exact b n (by simp only [List.mem_cons, not_or]; exact ⟨hnp, hn⟩)

/-- The plain assignments of `set_cpx_parameters`, in the order of the code. -/
def plainPuts : List (String × Src K) :=
  [("randomseed", .key "randomseed"), ("threads", .key "n_cores"), ("output.clonelog", .const (.int 0)), ("parallel", .const (.int 1)),
    ("emphasis.mip", .key "mipemphasis"), ("preprocessing.boundstrength", .key "bound_strengthening"),
    ("mip.cuts.implied", .key "implied_bound_cuts"), ("mip.cuts.localimplied", .key "locally_implied_bound_cuts"),
    ("mip.cuts.zerohalfcut", .key "zero_half_cuts"), ("mip.cuts.mircut", .key "mir_cuts"), ("mip.cuts.covers", .key "cover_cuts"),
    ("emphasis.numerical", .key "numerical_emphasis"), ("mip.tolerances.integrality", .key "integrality_tolerance"),
    ("mip.limits.repairtries", .key "repairtries"), ("mip.pool.capacity", .key "poolsize"), ("mip.pool.replace", .key "poolreplace"),
    ("mip.tolerances.mipgap", .key "mipgap"), ("mip.tolerances.absmipgap", .key "absmipgap")]

/-- Their names. -/
def plainNames : List String :=
  ["randomseed", "threads", "output.clonelog", "parallel", "emphasis.mip", "preprocessing.boundstrength", "mip.cuts.implied",
    "mip.cuts.localimplied", "mip.cuts.zerohalfcut", "mip.cuts.mircut", "mip.cuts.covers", "emphasis.numerical",
    "mip.tolerances.integrality", "mip.limits.repairtries", "mip.pool.capacity", "mip.pool.replace", "mip.tolerances.mipgap",
    "mip.tolerances.absmipgap"]

theorem plainPuts_names : (plainPuts (K := K)).map (·.1) = plainNames := rfl

theorem setCpxParameters_eq : setCpxParameters lib param = CpxStep.all (cpxQuiet lib param ::
    (plainPuts.map (putSrc lib param) ++
      [cpxLimit param "time_limit" (10 ^ 75) (setCpxTime lib),
        cpxLimit param "node_limit" 9223372036800000000 (setCpxNodes lib)])) := by
  unfold setCpxParameters
  simp only [plainPuts, List.map_cons, List.map_nil, putSrc, List.cons_append, List.nil_append]

theorem meaning_mem {k n : String} (h : (k, n) ∈ paramMeaning) : (n, Src.key k) ∈ plainPuts (K := K) := by
  have key : ∀ q ∈ paramMeaning, (q.2, q.1) ∈ [("randomseed", "randomseed"), ("threads", "n_cores"), ("emphasis.mip", "mipemphasis"),
      ("preprocessing.boundstrength", "bound_strengthening"), ("mip.cuts.implied", "implied_bound_cuts"),
      ("mip.cuts.localimplied", "locally_implied_bound_cuts"), ("mip.cuts.zerohalfcut", "zero_half_cuts"), ("mip.cuts.mircut", "mir_cuts"),
      ("mip.cuts.covers", "cover_cuts"), ("emphasis.numerical", "numerical_emphasis"),
      ("mip.tolerances.integrality", "integrality_tolerance"), ("mip.limits.repairtries", "repairtries"),
      ("mip.pool.capacity", "poolsize"), ("mip.pool.replace", "poolreplace"), ("mip.tolerances.mipgap", "mipgap"),
      ("mip.tolerances.absmipgap", "absmipgap")] := by decide
  have h2 := List.mem_map_of_mem (f := fun q : String × String => (q.1, (Src.key q.2 : Src K))) (key _ h)
  refine List.Sublist.subset ?_ h2
  unfold plainPuts
  refine .cons_cons _ (.cons_cons _ (.cons _ (.cons _ (List.Sublist.refl _))))

theorem plain_mem {n : String} (h : n ∉ paramMeaning.map (·.2)) (h1 : n ≠ "output.clonelog") (h2 : n ≠ "parallel") :
    n ∉ plainNames := by
  have key : ∀ q ∈ plainNames, q ∈ paramMeaning.map (·.2) ∨ q = "output.clonelog" ∨ q = "parallel" := by decide
  intro hn
  rcases key n hn with h' | h' | h'
  · exact h h'
  · exact h1 h'
  · exact h2 h'

/-- **C97**: what an accepted dictionary of parameters does.  Every entry reaches the parameter it is meant for; the display is
turned off if `display_cplex_progress` is `False`; limits below the defaults are set (nodes rounded towards zero, both at most what the
solver supports), other limits leave the limit in force as it is; two parameters get fixed values; nothing else changes. -/
theorem C97_set (h : setCpxParameters lib param c = (c', .ok ())) :
    (∀ k n, (k, n) ∈ paramMeaning → param.lookup k = some (c'.param n)) ∧
    (∃ d, param.lookup "display_cplex_progress" = some d ∧
      (d = .bool false → c'.muted = true ∧ ∀ n ∈ displayNames, c'.param n = .bool false) ∧
      (d ≠ .bool false → c'.muted = c.muted ∧ ∀ n ∈ displayNames, c'.param n = c.param n)) ∧
    LimitSet param "time_limit" "timelimit" (10 ^ 75) lib.maxTime id c c' ∧
    LimitSet param "node_limit" "mip.limits.nodes" 9223372036800000000 lib.maxNodes trunc c c' ∧
    c'.param "output.clonelog" = .int 0 ∧ c'.param "parallel" = .int 1 ∧ c'.vars = c.vars ∧
    (∀ n, n ∉ displayNames → n ∉ paramMeaning.map (·.2) → n ≠ "timelimit" → n ≠ "mip.limits.nodes" →
      n ≠ "output.clonelog" → n ≠ "parallel" → c'.param n = c.param n) := by
  rw [setCpxParameters_eq] at h
  simp only [all_cons_ok, all_append_ok, all_nil_ok, cpxLimit_ok, setCpxTime_ok, setCpxNodes_ok, cpxQuiet_ok, setCpxDisplay_ok] at h
  obtain ⟨c0, ⟨d, hd, h0⟩, cm, hcm, ct, ⟨vt, t, kt, ht, h1⟩, _, ⟨vn, x, kn, hn, h2⟩, rfl⟩ := h
  rw [all_put_ok (by rw [plainPuts_names]; decide), plainPuts_names] at hcm
  obtain ⟨hput, hcp, hv⟩ := hcm
  have h0v : c0.vars = c.vars := by rcases h0 with ⟨-, -, -, -, h⟩ | ⟨-, h⟩ <;> rw [h]
  have h0p : ∀ n, n ∉ displayNames → c0.param n = c.param n := by
    intro n hn
    simp only [displayNames, List.mem_cons, List.not_mem_nil, or_false, not_or] at hn
    rcases h0 with ⟨-, -, -, -, h⟩ | ⟨-, h⟩
    · rw [h]; simp only [Function.update_of_ne hn.2.2, Function.update_of_ne hn.2.1, Function.update_of_ne hn.1]
    · rw [h]
  have htp : ∀ n, n ≠ "timelimit" → ct.param n = cm.param n := by
    intro n hne
    rcases h1 with ⟨-, -, -, h⟩ | ⟨-, h⟩
    · rw [h]; exact Function.update_of_ne hne _ _
    · rw [h]
  have hnp : ∀ n, n ≠ "mip.limits.nodes" → c'.param n = ct.param n := by
    intro n hne
    rcases h2 with ⟨-, -, -, h⟩ | ⟨-, h⟩
    · rw [h]; exact Function.update_of_ne hne _ _
    · rw [h]
  have htv : ct.vars = cm.vars ∧ ct.muted = cm.muted := by
    rcases h1 with ⟨-, -, -, h⟩ | ⟨-, h⟩ <;> rw [h] <;> exact ⟨rfl, rfl⟩
  have hnv : c'.vars = ct.vars ∧ c'.muted = ct.muted := by
    rcases h2 with ⟨-, -, -, h⟩ | ⟨-, h⟩ <;> rw [h] <;> exact ⟨rfl, rfl⟩
  have hall : ∀ n, n ≠ "timelimit" → n ≠ "mip.limits.nodes" → c'.param n = cm.param n :=
    fun n a b => (hnp n b).trans (htp n a)
  have e1 : ∀ q ∈ displayNames, q ≠ "timelimit" ∧ q ≠ "mip.limits.nodes" ∧ q ∉ plainNames := by decide
  refine ⟨?_, ⟨d, hd, ?_, ?_⟩, ⟨vt, t, kt, ht, ?_, ?_⟩, ⟨vn, x, kn, hn, ?_, ?_⟩, ?_, ?_, ?_, ?_⟩
  · intro k n hkn
    have hne : n ≠ "timelimit" ∧ n ≠ "mip.limits.nodes" := by
      have : ∀ q ∈ paramMeaning, q.2 ≠ "timelimit" ∧ q.2 ≠ "mip.limits.nodes" := by decide
      exact this _ hkn
    rw [hall n hne.1 hne.2]
    exact (hput _ (meaning_mem hkn)).1
  · intro hdf
    rcases h0 with ⟨-, -, -, -, h⟩ | ⟨hh, -⟩
    · refine ⟨by rw [hnv.2, htv.2, hv.2, h]; simp, fun n hn => ?_⟩
      obtain ⟨a1, a2, a3⟩ := e1 n hn
      rw [hall n a1 a2, hcp n a3, h]
      simp only [displayNames, List.mem_cons, List.not_mem_nil, or_false] at hn
      rcases hn with rfl | rfl | rfl <;> simp [Function.update_apply]
    · exact absurd hdf hh
  · intro hdf
    rcases h0 with ⟨hh, -⟩ | ⟨-, h⟩
    · exact absurd hh hdf
    · refine ⟨by rw [hnv.2, htv.2, hv.2, h], fun n hn => ?_⟩
      obtain ⟨a1, a2, a3⟩ := e1 n hn
      rw [hall n a1 a2, hcp n a3, h]
  · intro hlt
    rw [hnp _ (by decide)]
    rcases h1 with ⟨-, h3, -, h⟩ | ⟨h, -⟩
    · refine ⟨h3, ?_⟩
      rw [h]; simp
    · exact absurd hlt (not_lt.mpr h)
  · intro hle
    rw [hnp _ (by decide)]
    rcases h1 with ⟨h, -⟩ | ⟨-, h⟩
    · exact absurd h (not_lt.mpr hle)
    · rw [h, hcp _ (by decide), h0p _ (by decide)]
  · intro hlt
    rcases h2 with ⟨-, h3, -, h⟩ | ⟨h, -⟩
    · refine ⟨h3, ?_⟩
      rw [h]; simp
    · exact absurd hlt (not_lt.mpr h)
  · intro hle
    rcases h2 with ⟨h, -⟩ | ⟨-, h⟩
    · exact absurd h (not_lt.mpr hle)
    · rw [h, htp _ (by decide), hcp _ (by decide), h0p _ (by decide)]
  · rw [hall _ (by decide) (by decide)]
    have := (hput ("output.clonelog", .const (.int 0)) (by simp [plainPuts])).1
    exact (Option.some.inj this).symm
  · rw [hall _ (by decide) (by decide)]
    have := (hput ("parallel", .const (.int 1)) (by simp [plainPuts])).1
    exact (Option.some.inj this).symm
  · rw [hnv.1, htv.1, hv.1, h0v]
  · intro n a1 a2 a3 a4 a5 a6
    rw [hall n a3 a4, hcp n (plain_mem a2 a5 a6), h0p n a1]

/-- A dictionary of parameters is complete and the solver takes its values. -/
structure ParamsOk (lib : CpxLib K) (param : List (String × PyVal K)) : Prop where
  display : ∃ d, param.lookup "display_cplex_progress" = some d ∧
    (d = .bool false → ∀ n ∈ displayNames, lib.accepts n (.bool false) = true)
  keys : ∀ k n, (k, n) ∈ paramMeaning → ∃ v, param.lookup k = some v ∧ lib.accepts n v = true
  fixed : lib.accepts "output.clonelog" (.int 0) = true ∧ lib.accepts "parallel" (.int 1) = true
  time : ∃ v x, param.lookup "time_limit" = some v ∧ IsNum v x ∧
    (x < 10 ^ 75 → 0 ≤ min x lib.maxTime ∧ lib.accepts "timelimit" (.flt (min x lib.maxTime)) = true)
  nodes : ∃ v x, param.lookup "node_limit" = some v ∧ IsNum v x ∧
    (x < 9223372036800000000 → 0 ≤ min (trunc x) lib.maxNodes ∧
      lib.accepts "mip.limits.nodes" (.flt (min (trunc x) lib.maxNodes)) = true)

theorem all_put_total {l : List (String × Src K)} (h : ∀ p ∈ l, ∃ v, p.2.fetch param = some v ∧ lib.accepts p.1 v = true) (c : Cpx K) :
    ∃ c', CpxStep.all (l.map (putSrc lib param)) c = (c', .ok ()) := by
  induction l generalizing c with
  | nil => exact ⟨c, rfl⟩
  | cons p l ih =>
    obtain ⟨v, h1, h2⟩ := h p List.mem_cons_self
    obtain ⟨c', hc⟩ := ih (fun q hq => h q (List.mem_cons_of_mem _ hq)) { c with param := Function.update c.param p.1 v }
    exact ⟨c', by rw [List.map_cons, all_cons_ok]; exact ⟨_, putSrc_ok.mpr ⟨v, h1, h2, rfl⟩, hc⟩⟩

theorem plain_cases {p : String × Src K} (h : p ∈ plainPuts (K := K)) :
    (∃ k, (k, p.1) ∈ paramMeaning ∧ p.2 = .key k) ∨ p = ("output.clonelog", .const (.int 0)) ∨ p = ("parallel", .const (.int 1)) := by
  simp only [plainPuts, List.mem_cons, List.not_mem_nil, or_false] at h
  rcases h with rfl | rfl | rfl | rfl | rfl | rfl | rfl | rfl | rfl | rfl | rfl | rfl | rfl | rfl | rfl | rfl | rfl | rfl
  · exact Or.inl ⟨_, by dsimp only; decide, rfl⟩
  · exact Or.inl ⟨_, by dsimp only; decide, rfl⟩
  · exact Or.inr (Or.inl rfl)
  · exact Or.inr (Or.inr rfl)
  all_goals exact Or.inl ⟨_, by dsimp only; decide, rfl⟩

/-- **C97**, acceptance: whether a dictionary is accepted depends on it and the solver only, not on earlier settings; exactly the complete
dictionaries with values the solver takes are accepted. -/
theorem C97_accepts (c : Cpx K) : (∃ c', setCpxParameters lib param c = (c', .ok ())) ↔ ParamsOk lib param := by
  rw [setCpxParameters_eq]
  constructor
  · rintro ⟨c', h⟩
    simp only [all_cons_ok, all_append_ok, all_nil_ok, cpxLimit_ok, setCpxTime_ok, setCpxNodes_ok, cpxQuiet_ok, setCpxDisplay_ok] at h
    obtain ⟨c0, ⟨d, hd, h0⟩, cm, hcm, ct, ⟨vt, t, kt, ht, h1⟩, _, ⟨vn, x, kn, hn, h2⟩, rfl⟩ := h
    rw [all_put_ok (by rw [plainPuts_names]; decide), plainPuts_names] at hcm
    obtain ⟨hput, hcp, hv⟩ := hcm
    refine ⟨⟨d, hd, ?_⟩, ?_, ⟨?_, ?_⟩, ⟨vt, t, kt, ht, ?_⟩, ⟨vn, x, kn, hn, ?_⟩⟩
    · intro hdf n hn
      rcases h0 with ⟨-, a, b, e, -⟩ | ⟨hh, -⟩
      · simp only [displayNames, List.mem_cons, List.not_mem_nil, or_false] at hn
        rcases hn with rfl | rfl | rfl
        · exact a
        · exact b
        · exact e
      · exact absurd hdf hh
    · intro k n hkn
      exact ⟨_, hput _ (meaning_mem hkn)⟩
    · obtain ⟨a, b⟩ := hput ("output.clonelog", .const (.int 0)) (by simp [plainPuts])
      rw [← Option.some.inj a] at b; exact b
    · obtain ⟨a, b⟩ := hput ("parallel", .const (.int 1)) (by simp [plainPuts])
      rw [← Option.some.inj a] at b; exact b
    · intro hlt
      rcases h1 with ⟨-, a, b, -⟩ | ⟨a, -⟩
      · exact ⟨a, b⟩
      · exact absurd hlt (not_lt.mpr a)
    · intro hlt
      rcases h2 with ⟨-, a, b, -⟩ | ⟨a, -⟩
      · exact ⟨a, b⟩
      · exact absurd hlt (not_lt.mpr a)
  · rintro ⟨⟨d, hd, h0⟩, hk, ⟨hf1, hf2⟩, ⟨vt, t, kt, ht, h1⟩, ⟨vn, x, kn, hn, h2⟩⟩
    have e0 : ∃ c0, cpxQuiet lib param c = (c0, .ok ()) := by
      by_cases hdf : d = .bool false
      · exact ⟨_, cpxQuiet_ok.mpr ⟨d, hd, Or.inl ⟨hdf, setCpxDisplay_ok.mpr ⟨h0 hdf _ (by decide), h0 hdf _ (by decide),
          h0 hdf _ (by decide), rfl⟩⟩⟩⟩
      · exact ⟨c, cpxQuiet_ok.mpr ⟨d, hd, Or.inr ⟨hdf, rfl⟩⟩⟩
    obtain ⟨c0, e0⟩ := e0
    obtain ⟨cm, em⟩ := all_put_total (l := plainPuts) (lib := lib) (param := param) (by
      intro p hp
      rcases plain_cases hp with ⟨k, h, h'⟩ | rfl | rfl
      · rw [h']; exact hk k p.1 h
      · exact ⟨_, rfl, hf1⟩
      · exact ⟨_, rfl, hf2⟩) c0
    have et : ∃ ct, cpxLimit param "time_limit" (10 ^ 75) (setCpxTime lib) cm = (ct, .ok ()) := by
      by_cases hlt : t < 10 ^ 75
      · exact ⟨_, cpxLimit_ok.mpr ⟨vt, t, kt, ht, Or.inl ⟨hlt, setCpxTime_ok.mpr ⟨(h1 hlt).1, (h1 hlt).2, rfl⟩⟩⟩⟩
      · exact ⟨cm, cpxLimit_ok.mpr ⟨vt, t, kt, ht, Or.inr ⟨not_lt.mp hlt, rfl⟩⟩⟩
    obtain ⟨ct, et⟩ := et
    have en : ∃ c', cpxLimit param "node_limit" 9223372036800000000 (setCpxNodes lib) ct = (c', .ok ()) := by
      by_cases hlt : x < 9223372036800000000
      · exact ⟨_, cpxLimit_ok.mpr ⟨vn, x, kn, hn, Or.inl ⟨hlt, setCpxNodes_ok.mpr ⟨(h2 hlt).1, (h2 hlt).2, rfl⟩⟩⟩⟩
      · exact ⟨ct, cpxLimit_ok.mpr ⟨vn, x, kn, hn, Or.inr ⟨not_lt.mp hlt, rfl⟩⟩⟩
    obtain ⟨c', en⟩ := en
    refine ⟨c', ?_⟩
    rw [all_cons_ok]
    refine ⟨c0, e0, ?_⟩
    rw [all_append_ok]
    refine ⟨cm, em, ?_⟩
    rw [all_cons_ok]
    refine ⟨ct, et, ?_⟩
    rw [all_cons_ok]
    exact ⟨c', en, rfl⟩

/-- **C97**, entries without effect: dictionaries that agree on the keys read have the same effect, so `objdifference`, `scale_parameters`,
`poolrelgap`, `nodefilesize` (and unknown keys) are ignored. -/
theorem C97_ignored {param' : List (String × PyVal K)} (h : ∀ k ∈ usedKeys, param.lookup k = param'.lookup k) :
    setCpxParameters lib param = setCpxParameters lib param' := by
  rw [setCpxParameters_eq, setCpxParameters_eq]
  have e1 : cpxQuiet lib param = cpxQuiet lib param' := by
    unfold cpxQuiet; rw [h _ (by decide)]
  have e2 : (plainPuts (K := K)).map (putSrc lib param) = plainPuts.map (putSrc lib param') := by
    refine List.map_congr_left fun p hp => ?_
    rcases plain_cases hp with ⟨k, hk, h'⟩ | rfl | rfl
    · have hu : k ∈ usedKeys := by
        have : ∀ q ∈ paramMeaning, q.1 ∈ usedKeys := by decide
        exact this _ hk
      unfold putSrc
      rw [h']
      dsimp only
      unfold cpxPutKey
      rw [h k hu]
    · rfl
    · rfl
  have e3 : ∀ k ∈ usedKeys, ∀ d s, cpxLimit param k d s = cpxLimit param' k d s := by
    intro k hk d s
    unfold cpxLimit; rw [h k hk]
  rw [e1, e2, e3 _ (by decide), e3 _ (by decide)]

theorem IsNum.unique {v : PyVal K} {x y : K} (h1 : IsNum v x) (h2 : IsNum v y) : x = y :=
  Option.some.inj ((cpxNum_iff.mpr h1).symm.trans (cpxNum_iff.mpr h2))

theorem LimitSet.again {key name : String} {d mx : K} {f : K → K} {c c1 c2 : Cpx K} (h1 : LimitSet param key name d mx f c c1)
    (h2 : LimitSet param key name d mx f c1 c2) : c2.param name = c1.param name := by
  obtain ⟨v, x, k1, n1, a1, b1⟩ := h1
  obtain ⟨v', x', k2, n2, a2, b2⟩ := h2
  rw [k1] at k2; cases k2
  have := n1.unique n2
  subst this
  rcases lt_or_ge x d with h | h
  · rw [(a1 h).2, (a2 h).2]
  · exact b2 h

/-- **C97**, setting the same parameters a second time changes nothing. -/
theorem C97_twice (h : setCpxParameters lib param c = (c', .ok ())) : setCpxParameters lib param c' = (c', .ok ()) := by
  obtain ⟨c2, h2⟩ := (C97_accepts c').mpr ((C97_accepts c).mp ⟨c', h⟩)
  have key : c2 = c' := by
    obtain ⟨a1, ⟨d1, b1, e1, f1⟩, t1, n1, g1, i1, v1, o1⟩ := C97_set h
    obtain ⟨a2, ⟨d2, b2, e2, f2⟩, t2, n2, g2, i2, v2, o2⟩ := C97_set h2
    rw [b1] at b2; cases b2
    have hp : c2.param = c'.param := by
      funext n
      by_cases hd : n ∈ displayNames
      · by_cases hdf : d1 = .bool false
        · rw [(e1 hdf).2 n hd, (e2 hdf).2 n hd]
        · exact (f2 hdf).2 n hd
      by_cases hm : n ∈ paramMeaning.map (·.2)
      · obtain ⟨q, hq, rfl⟩ := List.mem_map.mp hm
        exact Option.some.inj ((a2 q.1 q.2 hq).symm.trans (a1 q.1 q.2 hq))
      by_cases ht : n = "timelimit"
      · subst ht; exact t1.again t2
      by_cases hn : n = "mip.limits.nodes"
      · subst hn; exact n1.again n2
      by_cases hc : n = "output.clonelog"
      · subst hc; rw [g1, g2]
      by_cases hpl : n = "parallel"
      · subst hpl; rw [i1, i2]
      exact o2 n hd hm ht hn hc hpl
    have hm : c2.muted = c'.muted := by
      by_cases hdf : d1 = .bool false
      · rw [(e1 hdf).1, (e2 hdf).1]
      · exact (f2 hdf).1
    cases c2; cases c'
    simp only at hp hm v2
    rw [hp, hm, v2]
  rw [h2, key]

/-- **C97**, the defaults: they are accepted when the solver takes their values, and set no limits. -/
theorem C97_defaults (h : setCpxParameters lib defaultCpxParameters c = (c', .ok ())) :
    c'.param "timelimit" = c.param "timelimit" ∧ c'.param "mip.limits.nodes" = c.param "mip.limits.nodes" ∧ c'.muted = true ∧
    c'.param "threads" = .int 1 ∧ c'.param "mip.tolerances.integrality" = .flt 0 := by
  obtain ⟨a, ⟨d, hd, e, -⟩, ⟨v, x, k1, n1, -, b1⟩, ⟨v', x', k2, n2, -, b2⟩, -⟩ := C97_set h
  have hd' : defaultCpxParameters.lookup "display_cplex_progress" = some (.bool false : PyVal K) := rfl
  have k1' : defaultCpxParameters.lookup "time_limit" = some (.flt (10 ^ 75) : PyVal K) := rfl
  have k2' : defaultCpxParameters.lookup "node_limit" = some (.int 9223372036800000000 : PyVal K) := rfl
  rw [k1'] at k1; cases k1
  rw [k2'] at k2; cases k2
  rw [hd'] at hd; cases hd
  have e1 : x = 10 ^ 75 := n1.symm
  have e2 : x' = 9223372036800000000 := by
    have : ((9223372036800000000 : Int) : K) = x' := n2
    rw [← this]; norm_num
  refine ⟨b1 (le_of_eq e1.symm), b2 (le_of_eq e2.symm), (e rfl).1, ?_, ?_⟩
  · exact (Option.some.inj ((a "n_cores" "threads" (by decide)).symm.trans rfl))
  · exact (Option.some.inj ((a "integrality_tolerance" "mip.tolerances.integrality" (by decide)).symm.trans rfl))

/-- The time limit for a request. -/
def timeFor (lib : CpxLib K) : LimitReq K → PyVal K
  | .num x => .flt (min x lib.maxTime)
  | _ => .flt lib.maxTime

/-- The node limit for a request. -/
def nodesFor (lib : CpxLib K) : LimitReq K → PyVal K
  | .num x => .flt (min (trunc x) lib.maxNodes)
  | _ => .flt lib.maxNodes

/-- **C97**, limits given in the dictionary do not count when solving: after the settings made by `fit` or `populate` the limits in force
depend on the arguments of that call only. -/
theorem C97_overridden {c1 c1' c2 c2' : Cpx K} {f1 f2 : Bool} {t n : LimitReq K} (h1 : fitCpx lib f1 t n c1 = (c1', .ok ()))
    (h2 : fitCpx lib f2 t n c2 = (c2', .ok ())) :
    c1'.param "timelimit" = c2'.param "timelimit" ∧ c1'.param "mip.limits.nodes" = c2'.param "mip.limits.nodes" ∧
    (t = .none ∨ t = .inf → c1'.param "timelimit" = .flt lib.maxTime) ∧
    (n = .none ∨ n = .inf → c1'.param "mip.limits.nodes" = .flt lib.maxNodes) := by
  have kt : ∀ {c c' : Cpx K}, setCpxTime lib t c = (c', .ok ()) → ∃ v, c'.param = Function.update c.param "timelimit" v ∧
      v = timeFor lib t := by
    intro c c' h
    cases t with
    | num x => obtain ⟨-, -, rfl⟩ := setCpxTime_ok.mp h; exact ⟨_, rfl, rfl⟩
    | other => cases (Prod.mk.inj h).2
    | none => obtain ⟨-, rfl⟩ := cpxPut_ok.mp h; exact ⟨_, rfl, rfl⟩
    | inf => obtain ⟨-, rfl⟩ := cpxPut_ok.mp h; exact ⟨_, rfl, rfl⟩
  have kn : ∀ {c c' : Cpx K}, setCpxNodes lib n c = (c', .ok ()) → ∃ v, c'.param = Function.update c.param "mip.limits.nodes" v ∧
      v = nodesFor lib n := by
    intro c c' h
    cases n with
    | num x => obtain ⟨-, -, rfl⟩ := setCpxNodes_ok.mp h; exact ⟨_, rfl, rfl⟩
    | other => cases (Prod.mk.inj h).2
    | none => obtain ⟨-, rfl⟩ := cpxPut_ok.mp h; exact ⟨_, rfl, rfl⟩
    | inf => obtain ⟨-, rfl⟩ := cpxPut_ok.mp h; exact ⟨_, rfl, rfl⟩
  have key : ∀ {c c' : Cpx K} {f : Bool}, fitCpx lib f t n c = (c', .ok ()) →
      c'.param "timelimit" = timeFor lib t ∧
      c'.param "mip.limits.nodes" = nodesFor lib n := by
    intro c c' f h
    unfold fitCpx at h
    simp only [all_cons_ok, all_nil_ok] at h
    obtain ⟨ca, -, cb, hb, cc, hc, rfl⟩ := h
    obtain ⟨v, e1, e2⟩ := kt hb
    obtain ⟨w, e3, e4⟩ := kn hc
    rw [e3, e1]
    constructor
    · rw [Function.update_of_ne (by decide), Function.update_self]; exact e2
    · rw [Function.update_self]; exact e4
  obtain ⟨a1, b1⟩ := key h1
  obtain ⟨a2, b2⟩ := key h2
  refine ⟨a1.trans a2.symm, b1.trans b2.symm, ?_, ?_⟩
  · rintro (rfl | rfl) <;> exact a1
  · rintro (rfl | rfl) <;> exact b1

/-- The full C97 is false: a time limit cannot be lifted by setting the default parameters (or any others whose limit is not below
the default), although they ask for a larger limit. -/
theorem C97_lift_refuted {c1 c2 : Cpx K} {x : K} (hx : x < 10 ^ 75) (hp : param.lookup "time_limit" = some (.flt x))
    (h1 : setCpxParameters lib param c = (c1, .ok ())) (h2 : setCpxParameters lib defaultCpxParameters c1 = (c2, .ok ())) :
    c2.param "timelimit" = .flt (min x lib.maxTime) := by
  rw [(C97_defaults h2).1]
  obtain ⟨-, -, ⟨v, y, k, n, a, -⟩, -⟩ := C97_set h1
  rw [hp] at k; cases k
  have : x = y := n
  subst this
  exact (a hx).2

/-- A solver that takes every value. -/
def exLib : CpxLib ℚ := { accepts := fun _ _ => true, dflt := fun _ => .int 7, maxTime := 1000, maxNodes := 1000 }

/-- The default parameters with a time limit of 5. -/
def exParam : List (String × PyVal ℚ) := ("time_limit", .flt 5) :: ("n_cores", .int 2) :: defaultCpxParameters

theorem exParam_ok : ParamsOk exLib exParam ∧ ParamsOk exLib defaultCpxParameters := by
  constructor
  · refine ⟨⟨.bool false, rfl, fun _ _ _ => rfl⟩, ?_, ⟨rfl, rfl⟩, ⟨.flt 5, 5, rfl, rfl, fun _ => ⟨by unfold exLib; norm_num, rfl⟩⟩,
      ⟨.int 9223372036800000000, 9223372036800000000, rfl, by show ((9223372036800000000 : Int) : ℚ) = _; norm_num, fun h => absurd h (lt_irrefl _)⟩⟩
    intro k n h
    have : ∀ q ∈ paramMeaning, (exParam.lookup q.1).isSome = true := by decide +kernel
    obtain ⟨v, hv⟩ := Option.isSome_iff_exists.mp (this _ h)
    exact ⟨v, hv, rfl⟩
  · refine ⟨⟨.bool false, rfl, fun _ _ _ => rfl⟩, ?_, ⟨rfl, rfl⟩, ⟨.flt (10 ^ 75), 10 ^ 75, rfl, rfl, fun h => absurd h (lt_irrefl _)⟩,
      ⟨.int 9223372036800000000, 9223372036800000000, rfl, by show ((9223372036800000000 : Int) : ℚ) = _; norm_num, fun h => absurd h (lt_irrefl _)⟩⟩
    intro k n h
    have : ∀ q ∈ paramMeaning, ((defaultCpxParameters (K := ℚ)).lookup q.1).isSome = true := by decide +kernel
    obtain ⟨v, hv⟩ := Option.isSome_iff_exists.mp (this _ h)
    exact ⟨v, hv, rfl⟩

/-- Non-vacuity of C97: two settings in a row, the second with the defaults: the number of threads changes back, the limit stays. -/
example : ∃ c1 c2 : Cpx ℚ, setCpxParameters exLib exParam (newCpx exLib) = (c1, .ok ()) ∧
    setCpxParameters exLib defaultCpxParameters c1 = (c2, .ok ()) ∧ c1.param "threads" = .int 2 ∧ c2.param "threads" = .int 1 ∧
    c1.param "timelimit" = .flt 5 ∧ c2.param "timelimit" = .flt 5 := by
  obtain ⟨c1, h1⟩ := (C97_accepts (newCpx exLib)).mpr exParam_ok.1
  obtain ⟨c2, h2⟩ := (C97_accepts c1).mpr exParam_ok.2
  have e : (min 5 exLib.maxTime : ℚ) = 5 := by unfold exLib; norm_num
  refine ⟨c1, c2, h1, h2, ?_, (C97_defaults h2).2.2.2.1, ?_, ?_⟩
  · exact (Option.some.inj ((C97_set h1).1 "n_cores" "threads" (by decide))).symm
  · obtain ⟨-, -, ⟨v, y, k, n, a, -⟩, -⟩ := C97_set h1
    have k' : exParam.lookup "time_limit" = some (.flt 5) := rfl
    rw [k'] at k; cases k
    have : (5 : ℚ) = y := n
    subst this
    rw [(a (by norm_num)).2]; exact congrArg _ e
  · rw [C97_lift_refuted (x := 5) (by norm_num) rfl h1 h2]; exact congrArg _ e

/-! ## C98: the other helpers -/

theorem all_map_put_ok {names : List String} (hd : names.Nodup) {v : String → PyVal K} :
    CpxStep.all (names.map fun n => cpxPut lib n (v n)) c = (c', .ok ()) ↔
    (∀ n ∈ names, lib.accepts n (v n) = true) ∧ (∀ n ∈ names, c'.param n = v n) ∧ (∀ n, n ∉ names → c'.param n = c.param n) ∧
    c'.vars = c.vars ∧ c'.muted = c.muted := by
  have e : (names.map fun n => cpxPut lib n (v n)) = (names.map fun n => (n, Src.const (v n))).map (putSrc lib ([] : List (String × PyVal K))) := by
    rw [List.map_map]; rfl
  have hn : (names.map fun n => (n, (Src.const (v n) : Src K))).map (·.1) = names := by rw [List.map_map]; simp [Function.comp_def]
  rw [e, all_put_ok (by rw [hn]; exact hd), hn]
  simp only [List.mem_map, forall_exists_index, and_imp, forall_apply_eq_imp_iff₂, Src.fetch, Option.some.injEq]
  constructor
  · rintro ⟨h1, h2⟩
    refine ⟨fun n hn => ?_, fun n hn => (h1 n hn).1.symm, h2⟩
    have := h1 n hn
    rw [← this.1] at this; exact this.2
  · rintro ⟨h1, h2, h3⟩
    refine ⟨fun n hn => ⟨(h2 n hn).symm, ?_⟩, h3⟩
    rw [h2 n hn]; exact h1 n hn

/-- **C98**, preprocessing: turning it off sets exactly the five parameters to 0; turning it on always succeeds and gives them the solver's
defaults; no other parameter changes. -/
theorem C98_preprocessing (five : List String) (hf : five = ["preprocessing.aggregator", "preprocessing.reduce",
      "preprocessing.presolve", "preprocessing.coeffreduce", "preprocessing.boundstrength"]) :
    (toggleCpxPreprocessing lib false c = (c', .ok ()) → (∀ n ∈ five, c'.param n = .int 0) ∧
      (∀ n, n ∉ five → c'.param n = c.param n) ∧ c'.vars = c.vars ∧ c'.muted = c.muted) ∧
    (∃ c2, toggleCpxPreprocessing lib true c = (c2, .ok ()) ∧ (∀ n ∈ five, c2.param n = lib.dflt n) ∧
      (∀ n, n ∉ five → c2.param n = c.param n) ∧ c2.vars = c.vars ∧ c2.muted = c.muted) := by
  obtain rfl : five = preprocessingNames := hf
  constructor
  · intro h
    unfold toggleCpxPreprocessing at h
    rw [if_neg (by decide)] at h
    obtain ⟨-, h⟩ := (all_map_put_ok (v := fun _ => .int 0) (by decide)).mp h
    exact h
  · refine ⟨(toggleCpxPreprocessing lib true c).1, rfl, ?_, ?_, rfl, rfl⟩
    · intro n hn
      simp only [preprocessingNames, List.mem_cons, List.not_mem_nil, or_false] at hn
      rcases hn with rfl | rfl | rfl | rfl | rfl <;>
        simp [toggleCpxPreprocessing, preprocessingNames, CpxStep.all, cpxReset, Function.update_apply]
    · intro n hn
      simp only [preprocessingNames, List.mem_cons, List.not_mem_nil, or_false, not_or] at hn
      simp [toggleCpxPreprocessing, preprocessingNames, CpxStep.all, cpxReset, Function.update_apply, hn]

/-- Turning preprocessing off and on again does not restore the bound strengthening asked for by `bound_strengthening`: the solver's
default takes its place. -/
theorem C98_preprocessing_refuted {c1 c2 c3 : Cpx K} (_h1 : setCpxParameters lib param c = (c1, .ok ()))
    (_h2 : toggleCpxPreprocessing lib false c1 = (c2, .ok ())) (h3 : toggleCpxPreprocessing lib true c2 = (c3, .ok ())) :
    c3.param "preprocessing.boundstrength" = lib.dflt "preprocessing.boundstrength" := by
  obtain ⟨c4, h4, h5, -⟩ := (C98_preprocessing (lib := lib) (c := c2) (c' := c2) _ rfl).2
  rw [h3] at h4
  rw [(Prod.mk.inj h4).1]
  exact h5 _ (by decide)

/-- **C98**, cut-off values: exactly nonnegative numbers (that the solver takes) are accepted; the three parameters get the value and 95 percent
of the increment, nothing else changes.  Negative numbers fail an assertion and change nothing. -/
theorem C98_cutoff (v d : K) :
    (setCpxCutoff lib v d c = (c', .ok ()) → 0 ≤ v ∧ 0 ≤ d ∧ c'.param "mip.tolerances.uppercutoff" = .flt v ∧
      c'.param "mip.tolerances.objdifference" = .flt (95 / 100 * d) ∧ c'.param "mip.tolerances.absmipgap" = .flt (95 / 100 * d) ∧
      (∀ n, n ∉ ["mip.tolerances.uppercutoff", "mip.tolerances.objdifference", "mip.tolerances.absmipgap"] → c'.param n = c.param n) ∧
      c'.vars = c.vars ∧ c'.muted = c.muted) ∧
    (v < 0 ∨ d < 0 → setCpxCutoff lib v d c = (c, .error .assertion)) ∧
    (0 ≤ v → 0 ≤ d → (∀ n x, lib.accepts n (.flt x) = true) → ∃ c2, setCpxCutoff lib v d c = (c2, .ok ())) := by
  have hput : ∀ c c' : Cpx K, CpxStep.all [cpxPut lib "mip.tolerances.uppercutoff" (.flt v), cpxPut lib "mip.tolerances.objdifference" (.flt (95 / 100 * d)),
      cpxPut lib "mip.tolerances.absmipgap" (.flt (95 / 100 * d))] c = (c', .ok ()) ↔
      (lib.accepts "mip.tolerances.uppercutoff" (.flt v) = true ∧ lib.accepts "mip.tolerances.objdifference" (.flt (95 / 100 * d)) = true ∧
        lib.accepts "mip.tolerances.absmipgap" (.flt (95 / 100 * d)) = true) ∧
      c' = { c with param := Function.update (Function.update (Function.update c.param "mip.tolerances.uppercutoff" (.flt v))
        "mip.tolerances.objdifference" (.flt (95 / 100 * d))) "mip.tolerances.absmipgap" (.flt (95 / 100 * d)) } := by
    intro c c'
    simp only [all_cons_ok, all_nil_ok, cpxPut_ok]
    constructor
    · rintro ⟨_, ⟨h1, rfl⟩, _, ⟨h2, rfl⟩, _, ⟨h3, rfl⟩, rfl⟩; exact ⟨⟨h1, h2, h3⟩, rfl⟩
    · rintro ⟨⟨h1, h2, h3⟩, rfl⟩; exact ⟨_, ⟨h1, rfl⟩, _, ⟨h2, rfl⟩, _, ⟨h3, rfl⟩, rfl⟩
  unfold setCpxCutoff
  refine ⟨fun h => ?_, fun h => ?_, fun h1 h2 h3 => ?_⟩
  · by_cases hc : 0 ≤ v ∧ 0 ≤ d
    · rw [if_pos hc, hput] at h
      obtain ⟨-, rfl⟩ := h
      refine ⟨hc.1, hc.2, by simp [Function.update_apply], by simp [Function.update_apply], by simp, ?_, rfl, rfl⟩
      intro n hn
      simp only [List.mem_cons, List.not_mem_nil, or_false, not_or] at hn
      simp [Function.update_apply, hn]
    · rw [if_neg hc] at h; cases (Prod.mk.inj h).2
  · rw [if_neg]
    rintro ⟨h1, h2⟩
    rcases h with h | h
    · exact absurd h (not_lt.mpr h1)
    · exact absurd h (not_lt.mpr h2)
  · rw [if_pos ⟨h1, h2⟩]
    exact ⟨_, (hput _ _).mpr ⟨⟨h3 _ _, h3 _ _, h3 _ _⟩, rfl⟩⟩

/-- **C98**, copies: if the solver takes the values in force, and the list of changed parameters is complete, a copy has the same program and
the same value of every parameter. -/
theorem C98_copy {same : PyVal K → PyVal K → Bool} (hs : ∀ a b, same a b = true → a = b) {names : List String} (hd : names.Nodup)
    (hn : ∀ n, n ∉ names → c.param n = lib.dflt n) (ha : ∀ n ∈ names, lib.accepts n (c.param n) = true) :
    ∃ c2, copyCpx lib same names c = (c2, .ok ()) ∧ c2.vars = c.vars ∧ ∀ n, c2.param n = c.param n := by
  have key := fun c2 => all_map_put_ok (lib := lib) (c := { newCpx lib with vars := c.vars }) (c' := c2)
    (names := names.filter fun n => !same (c.param n) (lib.dflt n)) (v := c.param) (hd.filter _)
  refine ⟨{ param := c.param, vars := c.vars, muted := false }, ?_, rfl, fun _ => rfl⟩
  unfold copyCpx
  refine (key _).mpr ⟨fun n hn => ha n (List.mem_of_mem_filter hn), fun _ _ => rfl, fun n hnn => ?_, rfl, rfl⟩
  show c.param n = lib.dflt n
  by_cases hmem : n ∈ names
  · by_contra hne
    refine hnn (List.mem_filter.mpr ⟨hmem, ?_⟩)
    cases hsm : same (c.param n) (lib.dflt n) with
    | true => exact absurd (hs _ _ hsm) hne
    | false => rfl
  · exact hn n hmem

/-- Reading the parameters back is impossible: `get_cpx_parameters` raises an `AttributeError` for every solver object. -/
theorem C98_get_refuted (c : Cpx K) : getCpxParameters c = .error .attribute := rfl

/-- **C98**, output: whatever is done with a solver object afterwards (parameters, display on or off, limits, preprocessing, cut-offs), once its
output is cut it stays cut. -/
theorem C98_muted (hm : c.muted = true) :
    (setCpxParameters lib param c).1.muted = true ∧ (∀ m p l, (setCpxDisplay lib m p l c).1.muted = true) ∧
    (∀ f t n, (fitCpx lib f t n c).1.muted = true) ∧ (∀ b, (toggleCpxPreprocessing lib b c).1.muted = true) ∧
    (∀ v d, (setCpxCutoff lib v d c).1.muted = true) := by
  have hall : ∀ (fs : List (CpxStep K)), (∀ f ∈ fs, ∀ c : Cpx K, c.muted = true → (f c).1.muted = true) →
      ∀ c : Cpx K, c.muted = true → (CpxStep.all fs c).1.muted = true := by
    intro fs
    induction fs with
    | nil => intro _ c hc; exact hc
    | cons f fs ih =>
      intro h c hc
      have h1 := h f List.mem_cons_self c hc
      unfold CpxStep.all
      rcases hf : f c with ⟨c1, r⟩
      rw [hf] at h1
      cases r with
      | error er => exact h1
      | ok u => cases u; exact ih (fun g hg => h g (List.mem_cons_of_mem _ hg)) c1 h1
  have hput : ∀ n v, ∀ c : Cpx K, c.muted = true → (cpxPut lib n v c).1.muted = true := by
    intro n v c hc
    unfold cpxPut
    by_cases h : lib.accepts n v = true
    · rw [if_pos h]; exact hc
    · rw [if_neg h]; exact hc
  have hkey : ∀ n k, ∀ c : Cpx K, c.muted = true → (cpxPutKey lib param n k c).1.muted = true := by
    intro n k c hc
    unfold cpxPutKey
    cases param.lookup k with
    | none => exact hc
    | some v => exact hput n v c hc
  have hmute : ∀ b, ∀ c : Cpx K, c.muted = true → (cpxMute b c).1.muted = true := by
    intro b c hc
    unfold cpxMute
    cases b
    · exact hc
    · rfl
  have hdisp : ∀ m p l, ∀ c : Cpx K, c.muted = true → (setCpxDisplay lib m p l c).1.muted = true := by
    intro m p l c hc
    unfold setCpxDisplay
    refine hall _ ?_ c hc
    simp only [List.mem_cons, List.not_mem_nil, or_false]
    rintro f (rfl | rfl | rfl | rfl)
    · exact hput _ _
    · exact hput _ _
    · exact hput _ _
    · exact hmute _
  have htime : ∀ t, ∀ c : Cpx K, c.muted = true → (setCpxTime lib t c).1.muted = true := by
    intro t c hc
    cases t with
    | num x =>
      unfold setCpxTime
      dsimp only
      by_cases h : 0 ≤ min x lib.maxTime
      · rw [if_pos h]; exact hput _ _ c hc
      · rw [if_neg h]; exact hc
    | other => exact hc
    | none => exact hput _ _ c hc
    | inf => exact hput _ _ c hc
  have hnodes : ∀ t, ∀ c : Cpx K, c.muted = true → (setCpxNodes lib t c).1.muted = true := by
    intro t c hc
    cases t with
    | num x =>
      unfold setCpxNodes
      dsimp only
      by_cases h : 0 ≤ min (trunc x) lib.maxNodes
      · rw [if_pos h]; exact hput _ _ c hc
      · rw [if_neg h]; exact hc
    | other => exact hc
    | none => exact hput _ _ c hc
    | inf => exact hput _ _ c hc
  have hlim : ∀ k d (s : LimitReq K → CpxStep K), (∀ t, ∀ c : Cpx K, c.muted = true → (s t c).1.muted = true) →
      ∀ c : Cpx K, c.muted = true → (cpxLimit param k d s c).1.muted = true := by
    intro k d s hs c hc
    unfold cpxLimit
    cases param.lookup k with
    | none => exact hc
    | some v =>
      dsimp only
      cases cpxNum v with
      | none => exact hc
      | some x =>
        dsimp only
        by_cases h : x < d
        · rw [if_pos h]; exact hs _ c hc
        · rw [if_neg h]; exact hc
  have hquiet : ∀ c : Cpx K, c.muted = true → (cpxQuiet lib param c).1.muted = true := by
    intro c hc
    unfold cpxQuiet
    cases param.lookup "display_cplex_progress" with
    | none => exact hc
    | some v =>
      cases v with
      | bool b => cases b
                  · exact hdisp _ _ _ c hc
                  · exact hc
      | _ => exact hc
  refine ⟨?_, fun m p l => hdisp m p l c hm, fun f t n => ?_, fun b => ?_, fun v d => ?_⟩
  · rw [setCpxParameters_eq]
    refine hall _ ?_ c hm
    intro f hf
    rcases List.mem_cons.mp hf with rfl | hf
    · exact hquiet
    rcases List.mem_append.mp hf with hf | hf
    · obtain ⟨p, -, rfl⟩ := List.mem_map.mp hf
      unfold putSrc
      cases p.2 with
      | key k => exact hkey _ _
      | const v => exact hput _ _
    · simp only [List.mem_cons, List.not_mem_nil, or_false] at hf
      rcases hf with rfl | rfl
      · exact hlim _ _ _ htime
      · exact hlim _ _ _ hnodes
  · unfold fitCpx
    refine hall _ ?_ c hm
    simp only [List.mem_cons, List.not_mem_nil, or_false]
    rintro g (rfl | rfl | rfl)
    · exact hdisp _ _ _
    · exact htime _
    · exact hnodes _
  · unfold toggleCpxPreprocessing
    cases b
    · rw [if_neg (by decide)]
      refine hall _ ?_ c hm
      intro f hf
      obtain ⟨n, -, rfl⟩ := List.mem_map.mp hf
      exact hput _ _
    · rw [if_pos rfl]
      refine hall _ ?_ c hm
      intro f hf
      obtain ⟨n, -, rfl⟩ := List.mem_map.mp hf
      exact fun c hc => hc
  · unfold setCpxCutoff
    by_cases h : 0 ≤ v ∧ 0 ≤ d
    · rw [if_pos h]
      refine hall _ ?_ c hm
      simp only [List.mem_cons, List.not_mem_nil, or_false]
      rintro g (rfl | rfl | rfl) <;> exact hput _ _
    · rw [if_neg h]; exact hm

/-- A step changes parameters only to values that the solver accepts, whether it raises or not. -/
def SafeStep (lib : CpxLib K) (f : CpxStep K) : Prop :=
  ∀ c n, (f c).1.param n = c.param n ∨ lib.accepts n ((f c).1.param n) = true

theorem SafeStep.put (n : String) (v : PyVal K) : SafeStep lib (cpxPut lib n v) := by
  intro c k
  unfold cpxPut
  by_cases h : lib.accepts n v = true
  · rw [if_pos h]
    dsimp only
    by_cases hk : k = n
    · subst hk; right; rw [Function.update_self]; exact h
    · left; rw [Function.update_of_ne hk]
  · rw [if_neg h]; exact Or.inl rfl

theorem SafeStep.all {l : List (CpxStep K)} (h : ∀ f ∈ l, SafeStep lib f) : SafeStep lib (CpxStep.all l) := by
  induction l with
  | nil => intro c n; exact Or.inl rfl
  | cons f l ih =>
    intro c n
    have h1 := h f List.mem_cons_self c n
    have h2 := ih fun g hg => h g (List.mem_cons_of_mem _ hg)
    unfold CpxStep.all
    rcases hf : f c with ⟨c1, r⟩
    rw [hf] at h1
    dsimp only at h1
    cases r with
    | error er => exact h1
    | ok u =>
      cases u
      dsimp only
      rcases h2 c1 n with h3 | h3
      · rw [h3]; exact h1
      · exact Or.inr h3

theorem SafeStep.limits : (∀ t, SafeStep lib (setCpxTime lib t)) ∧ ∀ t, SafeStep lib (setCpxNodes lib t) := by
  constructor <;> intro t <;> cases t with
  | num x =>
    intro c n
    first | unfold setCpxTime | unfold setCpxNodes
    dsimp only
    split
    · exact SafeStep.put _ _ c n
    · exact Or.inl rfl
  | other => exact fun c n => Or.inl rfl
  | none => exact SafeStep.put _ _
  | inf => exact SafeStep.put _ _

theorem SafeStep.display (m p l : Bool) : SafeStep lib (setCpxDisplay lib m p l) := by
  refine SafeStep.all fun f hf => ?_
  simp only [List.mem_cons, List.not_mem_nil, or_false] at hf
  rcases hf with rfl | rfl | rfl | rfl
  · exact SafeStep.put _ _
  · exact SafeStep.put _ _
  · exact SafeStep.put _ _
  · intro c n; unfold cpxMute; dsimp only; split <;> exact Or.inl rfl

/-- **C97**, refused dictionaries: whatever dictionary is passed, and whether the call raises or not (a missing key, a refused value, a
negative limit), every parameter keeps its value or gets one that the solver accepts. -/
theorem C97_valid (param : List (String × PyVal K)) (c : Cpx K) (n : String) :
    (setCpxParameters lib param c).1.param n = c.param n ∨
      lib.accepts n ((setCpxParameters lib param c).1.param n) = true := by
  have key : SafeStep lib (setCpxParameters lib param) := by
    rw [setCpxParameters_eq]
    have hlim : ∀ (k : String) (d : K) (set : LimitReq K → CpxStep K), (∀ t, SafeStep lib (set t)) →
        SafeStep lib (cpxLimit param k d set) := by
      intro k d set hs c n
      unfold cpxLimit
      cases param.lookup k with
      | none => exact Or.inl rfl
      | some v =>
        dsimp only
        cases cpxNum v with
        | none => exact Or.inl rfl
        | some x =>
          dsimp only
          split
          · exact hs _ c n
          · exact Or.inl rfl
    refine SafeStep.all fun f hf => ?_
    rcases List.mem_cons.mp hf with rfl | hf
    · intro c n
      unfold cpxQuiet
      cases param.lookup "display_cplex_progress" with
      | none => exact Or.inl rfl
      | some v =>
        cases v with
        | bool b => cases b with
          | false => exact SafeStep.display _ _ _ c n
          | true => exact Or.inl rfl
        | _ => exact Or.inl rfl
    · rcases List.mem_append.mp hf with hf | hf
      · obtain ⟨p, -, rfl⟩ := List.mem_map.mp hf
        unfold putSrc
        rcases p with ⟨n, _ | _⟩
        all_goals dsimp only
        all_goals first
          | exact SafeStep.put _ _
          | (intro c n
             unfold cpxPutKey
             split
             · exact SafeStep.put _ _ c n
             · exact Or.inl rfl)
      · simp only [List.mem_cons, List.not_mem_nil, or_false] at hf
        rcases hf with rfl | rfl
        · exact hlim _ _ _ SafeStep.limits.1
        · exact hlim _ _ _ SafeStep.limits.2
  exact key c n

/-- Non-vacuity of C97_valid: a dictionary that is refused. -/
example : ∃ er : Err, (setCpxParameters (K := ℚ) exLib [("display_cplex_progress", .bool true)] (newCpx exLib)).2 = .error er := by
  exact ⟨.key, rfl⟩

/-- Progress cannot be shown for a program after one silent solve of it (the default): `fit(display_flag = True)` turns the display parameters
on, but the output streams stay cut. -/
theorem C98_display_refuted {c1 c2 : Cpx K} {t n t' n' : LimitReq K} (h1 : fitCpx lib false t n c = (c1, .ok ()))
    (h2 : fitCpx lib true t' n' c1 = (c2, .ok ())) : c2.muted = true := by
  have hm : c1.muted = true := by
    unfold fitCpx at h1
    rw [all_cons_ok] at h1
    obtain ⟨ca, ha, hb⟩ := h1
    have hma : ca.muted = true := by
      obtain ⟨-, -, -, rfl⟩ := setCpxDisplay_ok.mp ha
      simp
    have ht : ∀ t, ∀ c c' : Cpx K, setCpxTime lib t c = (c', .ok ()) → c'.muted = c.muted := by
      intro t c c' h
      cases t with
      | num x => obtain ⟨-, -, rfl⟩ := setCpxTime_ok.mp h; rfl
      | other => cases (Prod.mk.inj h).2
      | none => obtain ⟨-, rfl⟩ := cpxPut_ok.mp h; rfl
      | inf => obtain ⟨-, rfl⟩ := cpxPut_ok.mp h; rfl
    have hnn : ∀ t, ∀ c c' : Cpx K, setCpxNodes lib t c = (c', .ok ()) → c'.muted = c.muted := by
      intro t c c' h
      cases t with
      | num x => obtain ⟨-, -, rfl⟩ := setCpxNodes_ok.mp h; rfl
      | other => cases (Prod.mk.inj h).2
      | none => obtain ⟨-, rfl⟩ := cpxPut_ok.mp h; rfl
      | inf => obtain ⟨-, rfl⟩ := cpxPut_ok.mp h; rfl
    simp only [all_cons_ok, all_nil_ok] at hb
    obtain ⟨cb, hb1, cc, hb2, rfl⟩ := hb
    rw [hnn _ _ _ hb2, ht _ _ _ hb1]; exact hma
  have := (C98_muted (lib := lib) (param := []) hm).2.2.1 true t' n'
  rw [h2] at this
  exact this

/-- Non-vacuity of C98: a silent solve followed by one with display on, and a copy. -/
example : ∃ c1 c2 : Cpx ℚ, fitCpx exLib false .none (.num 5) (newCpx exLib) = (c1, .ok ()) ∧
    fitCpx exLib true .none .none c1 = (c2, .ok ()) ∧ c2.param "mip.display" = .bool true ∧ c2.muted = true ∧
    c1.param "mip.limits.nodes" = .flt 5 := by
  refine ⟨(fitCpx exLib false .none (.num 5) (newCpx exLib)).1, (fitCpx exLib true .none .none (fitCpx exLib false .none (.num 5) (newCpx exLib)).1).1, ?_, ?_, ?_, ?_, ?_⟩
  · have h : (0 : ℚ) ≤ min (trunc 5) exLib.maxNodes := by decide +kernel
    simp [fitCpx, CpxStep.all, setCpxDisplay, cpxPut, cpxMute, setCpxTime, setCpxNodes, exLib] at h ⊢
    simp [h]
  all_goals
    have h : (0 : ℚ) ≤ min (trunc 5) exLib.maxNodes := by decide +kernel
    have h5 : (min (trunc 5) exLib.maxNodes : ℚ) = 5 := by decide +kernel
    simp [fitCpx, CpxStep.all, setCpxDisplay, cpxPut, cpxMute, setCpxTime, setCpxNodes, exLib, Function.update_apply] at h h5 ⊢
    try simp [h, h5]

end Recourse
