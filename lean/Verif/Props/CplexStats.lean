import Verif.Props.CplexVars

/-!
# C98: statistics of a solver object
-/

set_option linter.unusedSectionVars false

namespace Recourse

variable {K : Type} [Field K] [LinearOrder K] [IsStrictOrderedRing K] [FloorRing K]

variable {sol : CpxSol K} {info : List (String × PyVal K)}

theorem lookup_dictUpdate (d new : List (String × PyVal K)) (k : String) :
    (dictUpdate d new).lookup k = (d.lookup k).map fun v => (new.lookup k).getD v := by
  unfold dictUpdate
  induction d with
  | nil => rfl
  | cons p d ih =>
    rw [List.map_cons, List.lookup_cons, List.lookup_cons]
    by_cases h : k = p.1
    · subst h; simp
    · have hb : (k == p.1) = false := by simpa using h
      rw [hb]; exact ih

theorem dictUpdate_keys (d new : List (String × PyVal K)) : (dictUpdate d new).map (·.1) = d.map (·.1) := by
  unfold dictUpdate
  rw [List.map_map]; rfl

/-- The keys of the dictionary. -/
def statKeys : List String :=
  ["status", "status_code", "has_solution", "has_mipstats", "iterations", "nodes_processed", "nodes_remaining", "values", "objval",
    "upperbound", "lowerbound", "gap"]

theorem initial_keys : (initialStats (K := K)).map (·.1) = statKeys := rfl

/-- The outcome of the queries of one block: all answered, or not. -/
def Answers (sol : CpxSol K) (keys : List String) (ans : String → PyVal K) : Prop := ∀ k ∈ keys, sol k = .ok (ans k)

theorem block_answers {keys : List String} {flag : String} {ans : String → PyVal K} (hf : flag ∉ keys) (h : Answers sol keys ans) :
    ∃ info', statsBlock sol keys flag info = .ok info' ∧ info'.map (·.1) = info.map (·.1) ∧
      ∀ k, k ∈ info.map (·.1) → info'.lookup k = (if k = flag then some (.bool true) else if k ∈ keys then some (ans k) else info.lookup k) := by
  have hm : (keys.mapM fun (k : String) => (do .ok (k, ← sol k) : Except Err (String × PyVal K))) = .ok (keys.map fun k => (k, ans k)) := by
    clear hf
    induction keys with
    | nil => rfl
    | cons k keys ih =>
      rw [List.mapM_cons, h k List.mem_cons_self, ih fun x hx => h x (List.mem_cons_of_mem _ hx)]
      rfl
  refine ⟨dictUpdate (dictUpdate info (keys.map fun k => (k, ans k))) [(flag, .bool true)], ?_, ?_, fun k hk => ?_⟩
  · unfold statsBlock
    rw [hm]
  · rw [dictUpdate_keys, dictUpdate_keys]
  · rw [lookup_dictUpdate, lookup_dictUpdate]
    obtain ⟨v, hv⟩ : ∃ v, info.lookup k = some v := by
      clear hm
      induction info with
      | nil => simp at hk
      | cons p l ih =>
        rw [List.lookup_cons]
        by_cases he : k = p.1
        · subst he; exact ⟨p.2, by simp⟩
        · have hb : (k == p.1) = false := by simpa using he
          rw [hb]
          rw [List.map_cons] at hk
          exact ih ((List.mem_cons.mp hk).resolve_left he)
    have hlk : (keys.map fun k => (k, ans k)).lookup k = if k ∈ keys then some (ans k) else none := by
      clear h hm hf
      induction keys with
      | nil => rfl
      | cons x l ih =>
        rw [List.map_cons, List.lookup_cons]
        by_cases he : k = x
        · subst he; simp
        · have hb : (k == x) = false := by simpa using he
          rw [hb]
          dsimp only
          rw [ih]
          simp only [List.mem_cons, he, false_or]
    rw [hv, hlk]
    by_cases he : k = flag
    · subst he; rw [if_neg hf, if_pos rfl]; simp
    · have hb : (k == flag) = false := by simpa using he
      rw [if_neg he]
      by_cases hkk : k ∈ keys
      · rw [if_pos hkk, if_pos hkk]; simp [List.lookup_cons, hb]
      · rw [if_neg hkk, if_neg hkk]; simp [List.lookup_cons, hb]

/-- The first query of a block that is not answered raises `e`. -/
def FailsWith (sol : CpxSol K) (keys : List String) (e : Err) : Prop :=
  ∃ l k r, keys = l ++ k :: r ∧ (∀ x ∈ l, ∃ v, sol x = .ok v) ∧ sol k = .error e

theorem block_fails {keys : List String} {e : Err} (h : FailsWith sol keys e) :
    (keys.mapM fun (k : String) => (do .ok (k, ← sol k) : Except Err (String × PyVal K))) = .error e := by
  obtain ⟨l, k, r, rfl, hl, hk⟩ := h
  induction l with
  | nil => rw [List.nil_append, List.mapM_cons, hk]; rfl
  | cons x l ih =>
    obtain ⟨v, hv⟩ := hl x List.mem_cons_self
    rw [List.cons_append, List.mapM_cons, hv, ih fun y hy => hl y (List.mem_cons_of_mem _ hy)]
    rfl

/-- The entries on the progress of the search. -/
def progressEntries : List String := ["status", "status_code", "iterations", "nodes_processed", "nodes_remaining"]

/-- The entries on the solution. -/
def solutionEntries : List String := ["values", "objval", "upperbound", "lowerbound", "gap"]

/-- An entry before any answer: a text for the status, zero for the counters, nothing (`None` or `nan`) for the rest. -/
def blankEntry (k : String) : PyVal K :=
  if k = "status" then .str "no solution exists"
  else if k ∈ ["iterations", "nodes_processed", "nodes_remaining"] then .int 0
  else .none

/-- **C98**, statistics: the dictionary always has the same twelve entries.  Each of the two groups of values is complete or untouched: if all
queries of a group are answered, its flag is `True` and its entries are the answers; if one of them raises `CplexError`, its flag is `False` and its entries
are the initial ones.  No mixture of old and new values. -/
theorem C98_stats (hp : (∃ a, Answers sol progressEntries a) ∨ FailsWith sol progressEntries .cplex)
    (hs : (∃ a, Answers sol solutionEntries a) ∨ FailsWith sol solutionEntries .cplex) :
    ∃ info, getStatsCpx sol = .ok info ∧ info.map (·.1) = statKeys ∧
      (∀ a, Answers sol progressEntries a → info.lookup "has_mipstats" = some (.bool true) ∧ ∀ k ∈ progressEntries, info.lookup k = some (a k)) ∧
      (FailsWith sol progressEntries .cplex → info.lookup "has_mipstats" = some (.bool false) ∧
        ∀ k ∈ progressEntries, info.lookup k = some (blankEntry k)) ∧
      (∀ a, Answers sol solutionEntries a → info.lookup "has_solution" = some (.bool true) ∧ ∀ k ∈ solutionEntries, info.lookup k = some (a k)) ∧
      (FailsWith sol solutionEntries .cplex → info.lookup "has_solution" = some (.bool false) ∧
        ∀ k ∈ solutionEntries, info.lookup k = some (blankEntry k)) := by
  have blank : ∀ k ∈ progressEntries ++ solutionEntries, (initialStats (K := K)).lookup k = some (blankEntry k) := by
    intro k hk
    simp only [progressEntries, solutionEntries, List.cons_append, List.nil_append, List.mem_cons, List.not_mem_nil, or_false] at hk
    rcases hk with rfl | rfl | rfl | rfl | rfl | rfl | rfl | rfl | rfl | rfl <;> rfl
  have excl : ∀ {keys : List String} {a : String → PyVal K} {e : Err}, Answers sol keys a → ¬ FailsWith sol keys e := by
    rintro keys a e ha ⟨l, k, r, rfl, -, hk⟩
    rw [ha k (by simp)] at hk; cases hk
  have uniq : ∀ {keys : List String} {a b : String → PyVal K}, Answers sol keys a → Answers sol keys b → ∀ k ∈ keys, a k = b k := by
    intro keys a b ha hb k hk
    have := (ha k hk).symm.trans (hb k hk)
    exact Except.ok.inj this
  have blk : ∀ (keys : List String) (flag : String) (info : List (String × PyVal K)), flag ∉ keys → flag ∈ info.map (·.1) → info.lookup flag = some (.bool false) →
      (∀ k ∈ keys, k ∈ info.map (·.1)) → ((∃ a, Answers sol keys a) ∨ FailsWith sol keys .cplex) →
      ∃ info', statsBlock sol keys flag info = .ok info' ∧ info'.map (·.1) = info.map (·.1) ∧
        (∀ k ∈ info.map (·.1), k ∉ keys → k ≠ flag → info'.lookup k = info.lookup k) ∧
        (∀ a, Answers sol keys a → info'.lookup flag = some (.bool true) ∧ ∀ k ∈ keys, info'.lookup k = some (a k)) ∧
        (FailsWith sol keys .cplex → info'.lookup flag = some (.bool false) ∧ ∀ k ∈ keys, info'.lookup k = info.lookup k) := by
    intro keys flag info hf hfi hff hk h
    rcases h with ⟨a, ha⟩ | h
    · obtain ⟨i, h1, h2, h3⟩ := block_answers (info := info) hf ha
      refine ⟨i, h1, h2, fun k hki hkn hkf => ?_, fun b hb => ⟨?_, fun k hkk => ?_⟩, fun hfail => absurd hfail (excl ha)⟩
      · rw [h3 k hki, if_neg hkf, if_neg hkn]
      · rw [h3 flag hfi, if_pos rfl]
      · rw [h3 k (hk k hkk), if_neg (by rintro rfl; exact hf hkk), if_pos hkk, uniq ha hb k hkk]
    · refine ⟨info, ?_, rfl, fun _ _ _ _ => rfl, fun a ha => absurd h (excl ha), fun _ => ⟨hff, fun _ _ => rfl⟩⟩
      unfold statsBlock
      rw [block_fails h]
  obtain ⟨i1, a1, a2, a3, a4, a5⟩ := blk progressEntries "has_mipstats" initialStats (by decide) (by rw [initial_keys]; decide) rfl (by rw [initial_keys]; decide) hp
  rw [initial_keys] at a2 a3
  have hflag : i1.lookup "has_solution" = some (.bool false) := by
    rw [a3 "has_solution" (by decide) (by decide) (by decide)]; rfl
  obtain ⟨i2, b1, b2, b3, b4, b5⟩ := blk solutionEntries "has_solution" i1 (by decide) (by rw [a2]; decide) hflag (by rw [a2]; decide) hs
  refine ⟨i2, ?_, b2.trans a2, fun a ha => ⟨?_, fun k hk => ?_⟩, fun hf => ⟨?_, fun k hk => ?_⟩, fun a ha => b4 a ha, fun hf => ⟨(b5 hf).1, fun k hk => ?_⟩⟩
  · unfold getStatsCpx
    rw [show progressKeys = progressEntries from rfl, a1, ok_bind]; exact b1
  · rw [b3 "has_mipstats" (by rw [a2]; decide) (by decide) (by decide)]; exact (a4 a ha).1
  · have h1 : ∀ k ∈ progressEntries, k ∈ statKeys ∧ k ∉ solutionEntries ∧ k ≠ "has_solution" := by decide
    obtain ⟨c1, c2, c3⟩ := h1 k hk
    rw [b3 k (by rw [a2]; exact c1) c2 c3]; exact (a4 a ha).2 k hk
  · rw [b3 "has_mipstats" (by rw [a2]; decide) (by decide) (by decide)]; exact (a5 hf).1
  · have h1 : ∀ k ∈ progressEntries, k ∈ statKeys ∧ k ∉ solutionEntries ∧ k ≠ "has_solution" := by decide
    obtain ⟨c1, c2, c3⟩ := h1 k hk
    rw [b3 k (by rw [a2]; exact c1) c2 c3, (a5 hf).2 k hk]; exact blank k (List.mem_append_left _ hk)
  · have h1 : ∀ k ∈ solutionEntries, k ∈ statKeys ∧ k ∉ progressEntries ∧ k ≠ "has_mipstats" := by decide
    obtain ⟨c1, c2, c3⟩ := h1 k hk
    rw [(b5 hf).2 k hk, a3 k c1 c2 c3]; exact blank k (List.mem_append_right _ hk)

/-- **C98**, statistics: any other exception of the library reaches the caller. -/
theorem C98_stats_raises {e : Err} (he : e ≠ .cplex) (h : FailsWith sol progressEntries e) : getStatsCpx sol = .error e := by
  unfold getStatsCpx statsBlock
  rw [show progressKeys = progressEntries from rfl, block_fails h]
  cases e <;> first | rfl | exact absurd rfl he

/-- An infeasible program: the status is known, the solution is not. -/
example : ∃ info, getStatsCpx (fun k => if k ∈ solutionEntries then .error .cplex else .ok (.int 103 : PyVal ℚ)) = .ok info ∧
    info.lookup "has_mipstats" = some (.bool true) ∧ info.lookup "has_solution" = some (.bool false) ∧ info.lookup "status_code" = some (.int 103) ∧
    info.lookup "objval" = some .none := ⟨_, rfl, rfl, rfl, rfl, rfl⟩

end Recourse
