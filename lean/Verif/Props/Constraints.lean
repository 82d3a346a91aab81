import Verif.Model.Constraints
import Verif.Lemmas.Except
import Verif.Examples
import Std.Data.String.ToNat

/-!
# Properties C18, C19: the registry of subset limits
-/

set_option linter.unusedSectionVars false

namespace Recourse

/-! ## Specification: histories of the registry -/

/-- A request to the registry. -/
inductive CReq
  | add (names : List String) (lb ub : Int) (id : Option String)
  | remove (id : String)

/-- Effect of a request: new registry and, for accepted additions, the returned id.  Rejected requests
raise and leave the registry as it was. -/
def CReq.run (c : Constraints) : CReq → Constraints × List String
  | .add names lb ub id => match c.add names lb ub id with
    | .ok (c', i) => (c', [i])
    | .error _ => (c, [])
  | .remove id => match c.remove id with
    | .ok c' => (c', [])
    | .error _ => (c, [])

/-- A history of requests: final registry and all ids returned on the way. -/
def runReqs (c : Constraints) : List CReq → Constraints × List String
  | [] => (c, [])
  | r :: rs =>
      let s := r.run c
      let t := runReqs s.1 rs
      (t.1, s.2 ++ t.2)

/-- The caller never chooses an id. -/
def CReq.auto : CReq → Bool
  | .add _ _ _ (some _) => false
  | _ => true

/-- Ids in use. -/
def Constraints.ids (c : Constraints) : List String := c.items.map (·.id)

/-! ## Lemmas -/

theorem dictSetCons_fresh {l : List SubsetLimit} {k : SubsetLimit} (h : k.id ∉ l.map (·.id)) :
    dictSetCons l k = l ++ [k] := by
  unfold dictSetCons
  rw [if_neg]
  simp only [List.any_eq_true, decide_eq_true_eq, not_exists, not_and]
  intro c hc he
  exact h (List.mem_map.mpr ⟨c, hc, he⟩)

theorem dictSetCons_old {l : List SubsetLimit} {k : SubsetLimit} (h : k.id ∈ l.map (·.id)) :
    dictSetCons l k = l.map (fun c => if c.id = k.id then k else c) := by
  unfold dictSetCons
  rw [if_pos]
  obtain ⟨c, hc, he⟩ := List.mem_map.mp h
  simp only [List.any_eq_true, decide_eq_true_eq]
  exact ⟨c, hc, he⟩

theorem dictSetCons_ids (l : List SubsetLimit) (k : SubsetLimit) :
    (dictSetCons l k).map (·.id) =
      if k.id ∈ l.map (·.id) then l.map (·.id) else l.map (·.id) ++ [k.id] := by
  split_ifs with h
  · rw [dictSetCons_old h, List.map_map]
    apply List.map_congr_left
    intro c _
    simp only [Function.comp]
    split_ifs with hc
    · exact hc.symm
    · rfl
  · rw [dictSetCons_fresh h]; simp

theorem mem_dictSetCons {l : List SubsetLimit} {k c : SubsetLimit} (h : c ∈ dictSetCons l k) :
    c = k ∨ c ∈ l := by
  unfold dictSetCons at h
  split_ifs at h
  · obtain ⟨c', hc', rfl⟩ := List.mem_map.mp h
    split_ifs
    · exact Or.inl rfl
    · exact Or.inr hc'
  · rcases List.mem_append.mp h with h | h
    · exact Or.inr h
    · exact Or.inl (List.mem_singleton.mp h)

/-- What an accepted addition does. -/
theorem add_ok {c c' : Constraints} {names : List String} {lb ub : Int} {id : Option String}
    {i : String} (h : c.add names lb ub id = .ok (c', i)) :
    i = id.getD (toString c.counter) ∧ i ≠ "" ∧ names.Nodup ∧ 2 ≤ names.length ∧
    (∀ n ∈ names, n ∈ c.names) ∧ 0 ≤ lb ∧ lb ≤ ub ∧ ub ≤ c.names.length ∧
    c'.names = c.names ∧ c'.counter = c.counter + 1 ∧
    ∃ k : SubsetLimit, k.id = i ∧ k.lb = lb ∧ k.ub = ub ∧
      k.names = (sortByIndex (names.map fun s => (c.names.idxOf s, s))).map (·.2) ∧
      k.indices = (sortByIndex (names.map fun s => (c.names.idxOf s, s))).map (·.1) ∧
      c'.items = dictSetCons c.items k := by
  unfold Constraints.add at h
  simp only [bind_ok_iff, pyAssert_ok_iff, decide_eq_true_eq] at h
  obtain ⟨_, h1, _, h2, _, h3, h⟩ := h
  split_ifs at h with h4
  simp only [bind_ok_iff, pyAssert_ok_iff, decide_eq_true_eq] at h
  obtain ⟨_, h5, _, h6, _, h7, h⟩ := h
  cases h
  simp only [checkVariableNames, Bool.and_eq_true, decide_eq_true_eq] at h2
  simp only [List.all_eq_true, decide_eq_true_eq] at h4
  refine ⟨rfl, ?_, h2.2, h3.1, h4, h5.1, h7, h6.2, rfl, rfl, _, rfl, rfl, rfl, rfl, rfl, rfl⟩
  intro he
  rw [he] at h1
  simp at h1

theorem remove_ok {c c' : Constraints} {id : String} (h : c.remove id = .ok c') :
    id ∈ c.ids ∧ c' = { c with items := c.items.filter (fun k => decide (k.id ≠ id)) } := by
  unfold Constraints.remove at h
  simp only [bind_ok_iff, pyAssert_ok_iff, decide_eq_true_eq] at h
  obtain ⟨_, -, h⟩ := h
  split_ifs at h with h4
  cases h
  refine ⟨?_, rfl⟩
  simp only [List.any_eq_true, decide_eq_true_eq] at h4
  obtain ⟨k, hk, he⟩ := h4
  exact List.mem_map.mpr ⟨k, hk, he⟩

/-! ## C18 -/

/-- **C18**, one request: an addition whose id is not in use appends exactly one constraint, keeps the
others, and removing the returned id restores the registry; an id in use replaces the constraint with
that id and leaves the length unchanged. -/
theorem C18_add_effect {c c' : Constraints} {names : List String} {lb ub : Int} {id : Option String}
    {i : String} (h : c.add names lb ub id = .ok (c', i)) :
    (i ∉ c.ids → c'.items.length = c.items.length + 1 ∧ (∀ k ∈ c.items, k ∈ c'.items) ∧ i ∈ c'.ids ∧
      ∃ c'', c'.remove i = .ok c'' ∧ c''.items = c.items) ∧
    (i ∈ c.ids → c'.items.length = c.items.length ∧ c'.ids = c.ids) := by
  obtain ⟨-, hne, -, -, -, -, -, -, -, -, k, hk, -, -, -, -, hi⟩ := add_ok h
  subst hk
  constructor
  · intro hf
    have e := dictSetCons_fresh hf
    rw [hi, e]
    refine ⟨by simp, fun k' hk' => by simp [hk'], by simp [Constraints.ids, hi, e], ?_⟩
    have hlen : 0 < k.id.length := by
      rw [Nat.pos_iff_ne_zero]
      intro h0; exact hne (String.length_eq_zero_iff.mp h0)
    refine ⟨{ c' with items := c.items }, ?_, rfl⟩
    unfold Constraints.remove
    rw [decide_eq_true hlen, pyAssert_true, ok_bind, if_pos]
    · rw [hi, e]
      congr 2
      rw [List.filter_append]
      have : c.items.filter (fun k' => decide (k'.id ≠ k.id)) = c.items := by
        rw [List.filter_eq_self]
        intro k' hk'
        simp only [ne_eq, decide_eq_true_eq]
        intro he
        exact hf (List.mem_map.mpr ⟨k', hk', he⟩)
      rw [this]; simp
    · rw [hi, e]; simp
  · intro hm
    have hids : c'.ids = c.ids := by
      unfold Constraints.ids
      rw [hi, dictSetCons_ids]
      exact if_pos hm
    refine ⟨?_, hids⟩
    rw [hi, dictSetCons_old hm, List.length_map]

/-- **C18**, removal: it succeeds exactly on ids in use, and then removes exactly that constraint. -/
theorem C18_remove {c : Constraints} {id : String} (hid : id ≠ "") :
    (id ∈ c.ids → ∃ c', c.remove id = .ok c' ∧ ∀ k, k ∈ c'.items ↔ k ∈ c.items ∧ k.id ≠ id) ∧
    (id ∉ c.ids → c.remove id = .error .value) := by
  have hlen : 0 < id.length := by
    rw [Nat.pos_iff_ne_zero]
    intro h0; exact hid (String.length_eq_zero_iff.mp h0)
  unfold Constraints.remove
  rw [decide_eq_true hlen, pyAssert_true, ok_bind]
  constructor
  · intro hm
    obtain ⟨k, hk, he⟩ := List.mem_map.mp hm
    rw [if_pos (List.any_eq_true.mpr ⟨k, hk, by simpa using he⟩)]
    exact ⟨_, rfl, fun k' => by simp⟩
  · intro hm
    rw [if_neg]
    simp only [List.any_eq_true, decide_eq_true_eq, not_exists, not_and]
    intro k hk he
    exact hm (List.mem_map.mpr ⟨k, hk, he⟩)

theorem toString_nat_inj {m n : ℕ} (h : toString m = toString n) : m = n := Nat.repr_injective h

theorem runReqs_auto {c : Constraints} (rs : List CReq) (hauto : ∀ r ∈ rs, r.auto = true)
    (hc : ∀ i ∈ c.ids, ∃ k < c.counter, i = toString k) :
    (∀ i ∈ (runReqs c rs).1.ids, ∃ k < (runReqs c rs).1.counter, i = toString k) ∧
    c.counter ≤ (runReqs c rs).1.counter ∧
    (∀ i ∈ (runReqs c rs).2, ∃ k, c.counter ≤ k ∧ k < (runReqs c rs).1.counter ∧ i = toString k) ∧
    (runReqs c rs).2.Nodup := by
  induction rs generalizing c with
  | nil => exact ⟨hc, le_rfl, by simp [runReqs], by simp [runReqs]⟩
  | cons r rs ih =>
    have step : (∀ i ∈ (r.run c).1.ids, ∃ k < (r.run c).1.counter, i = toString k) ∧
        (((r.run c).2 = [] ∧ (r.run c).1.counter = c.counter) ∨
         ((r.run c).2 = [toString c.counter] ∧ (r.run c).1.counter = c.counter + 1)) := by
      cases r with
      | add names lb ub id =>
        have hid : id = none := by
          have := hauto _ List.mem_cons_self
          cases id with
          | none => rfl
          | some _ => simp [CReq.auto] at this
        subst hid
        simp only [CReq.run]
        cases ha : c.add names lb ub none with
        | error er => exact ⟨hc, Or.inl ⟨rfl, rfl⟩⟩
        | ok p =>
          obtain ⟨c', i⟩ := p
          obtain ⟨hi, -, -, -, -, -, -, -, -, hcnt, k, hk, -, -, -, -, hit⟩ := add_ok ha
          simp only [Option.getD_none] at hi
          refine ⟨?_, Or.inr ⟨by rw [hi], hcnt⟩⟩
          intro j hj
          simp only [Constraints.ids, hit, dictSetCons_ids] at hj
          rw [hcnt]
          split_ifs at hj
          · obtain ⟨m, hm, e⟩ := hc j hj; exact ⟨m, by omega, e⟩
          · rcases List.mem_append.mp hj with hj | hj
            · obtain ⟨m, hm, e⟩ := hc j hj; exact ⟨m, by omega, e⟩
            · rw [List.mem_singleton.mp hj, hk, hi]; exact ⟨c.counter, by omega, rfl⟩
      | remove id =>
        simp only [CReq.run]
        cases hr : c.remove id with
        | error er => exact ⟨hc, Or.inl ⟨rfl, rfl⟩⟩
        | ok c' =>
          obtain ⟨-, rfl⟩ := remove_ok hr
          refine ⟨?_, Or.inl ⟨rfl, rfl⟩⟩
          intro j hj
          obtain ⟨k, hk, rfl⟩ := List.mem_map.mp hj
          exact hc _ (List.mem_map.mpr ⟨k, (List.mem_filter.mp hk).1, rfl⟩)
    obtain ⟨s1, s2⟩ := step
    obtain ⟨i1, i2, i3, i4⟩ := ih (fun r hr => hauto r (List.mem_cons_of_mem _ hr)) s1
    simp only [runReqs]
    rcases s2 with ⟨s2, s3⟩ | ⟨s2, s3⟩
    · rw [s3] at i2 i3
      rw [s2]
      simp only [List.nil_append]
      exact ⟨i1, i2, i3, i4⟩
    · rw [s3] at i2 i3
      rw [s2]
      refine ⟨i1, by omega, ?_, ?_⟩
      · intro i hi
        rcases List.mem_append.mp hi with hi | hi
        · exact ⟨c.counter, le_rfl, by omega, List.mem_singleton.mp hi⟩
        · obtain ⟨k, k1, k2, k3⟩ := i3 i hi; exact ⟨k, by omega, k2, k3⟩
      · rw [List.singleton_append, List.nodup_cons]
        refine ⟨?_, i4⟩
        intro hi
        obtain ⟨k, k1, k2, k3⟩ := i3 _ hi
        have := toString_nat_inj k3
        omega

/-- **C18** (partial), automatic ids: in every history in which the caller never chooses an id, all ids
returned are different, and the id returned next was neither returned before nor is it in use; hence
(`C18_add_effect`) each accepted addition adds exactly one constraint.  Missing from the full property:
histories in which the caller also chooses ids, where it is false (`C18_ids_refuted`). -/
theorem C18_auto_ids_partial (names : List String) (rs : List CReq)
    (hauto : ∀ r ∈ rs, r.auto = true) :
    (runReqs (Constraints.init names) rs).2.Nodup ∧
    ∀ ns lb ub c' i, (runReqs (Constraints.init names) rs).1.add ns lb ub none = .ok (c', i) →
      i ∉ (runReqs (Constraints.init names) rs).2 ∧
      i ∉ (runReqs (Constraints.init names) rs).1.ids ∧
      c'.items.length = (runReqs (Constraints.init names) rs).1.items.length + 1 := by
  obtain ⟨h1, -, h3, h4⟩ := runReqs_auto (c := Constraints.init names) rs hauto
    (by simp [Constraints.ids, Constraints.init])
  refine ⟨h4, ?_⟩
  intro ns lb ub c' i ha
  have hi := (add_ok ha).1
  simp only [Option.getD_none] at hi
  have hn : i ∉ (runReqs (Constraints.init names) rs).1.ids := by
    intro hm
    obtain ⟨k, hk, e⟩ := h1 i hm
    rw [hi] at e
    have := toString_nat_inj e
    omega
  refine ⟨?_, hn, ((C18_add_effect ha).1 hn).1⟩
  intro hm
  obtain ⟨k, -, hk, e⟩ := h3 i hm
  rw [hi] at e
  have := toString_nat_inj e
  omega

/-- **C18** refuted for mixed histories: after adding a constraint with the chosen id `"1"`, an addition
without id gets the id `"1"` and silently replaces it. -/
theorem C18_ids_refuted :
    ∃ c1, (Constraints.init ["a", "b", "c"]).add ["a", "b"] 0 1 (some "1") = .ok c1 ∧
    c1.1.items.length = 1 ∧
    ∃ c2, c1.1.add ["b", "c"] 0 1 none = .ok c2 ∧ c2.2 = "1" ∧ c2.1.items.length = 1 ∧
      c2.1.items.map (·.names) = [["b", "c"]] := by decide +kernel

/-- Non-vacuity: a history of automatic additions and a removal. -/
example : (runReqs (Constraints.init ["a", "b", "c"])
    [.add ["a", "b"] 0 1 none, .add ["c", "b"] 1 2 none, .remove "0", .add ["a", "c"] 0 2 none]).2
      = ["0", "1", "2"] := by decide +kernel

/-! ## C19 -/

/-- A stored constraint is well formed with respect to the variable names. -/
structure SubsetLimit.WF (names : List String) (k : SubsetLimit) : Prop where
  distinct : k.names.Nodup
  atLeastTwo : 2 ≤ k.names.length
  known : ∀ n ∈ k.names, n ∈ names
  /-- the `i`-th index is the column position of the `i`-th name -/
  position : k.names.map some = k.indices.map (names[·]?)
  /-- column order -/
  ordered : k.indices.Pairwise (· < ·)
  limits : 0 ≤ k.lb ∧ k.lb ≤ k.ub ∧ k.ub ≤ names.length
  idNonempty : k.id ≠ ""

theorem sortByIndex_perm (l : List (ℕ × String)) : (sortByIndex l).Perm l :=
  List.perm_insertionSort _ _

theorem add_wf {c c' : Constraints} {names : List String} {lb ub : Int} {id : Option String}
    {i : String} (h : c.add names lb ub id = .ok (c', i)) (hc : ∀ k ∈ c.items, k.WF c.names) :
    ∀ k ∈ c'.items, k.WF c'.names := by
  obtain ⟨-, hne, hnd, hlen, hkn, hl1, hl2, hl3, hnames, -, k, hk, hklb, hkub, hkn', hki, hit⟩ := add_ok h
  intro k' hk'
  rw [hit] at hk'
  rw [hnames]
  rcases mem_dictSetCons hk' with rfl | hk'
  · have hp := sortByIndex_perm (names.map fun s => (c.names.idxOf s, s))
    have hpn : (k'.names).Perm names := by
      rw [hkn']
      have := hp.map (·.2)
      simpa [List.map_map, Function.comp_def] using this
    have hmem : ∀ q ∈ sortByIndex (names.map fun s => (c.names.idxOf s, s)),
        q.2 ∈ names ∧ q.1 = c.names.idxOf q.2 := by
      intro q hq
      obtain ⟨s, hs, rfl⟩ := List.mem_map.mp (hp.mem_iff.mp hq)
      exact ⟨hs, rfl⟩
    refine ⟨hpn.nodup_iff.mpr hnd, by rw [hpn.length_eq]; exact hlen,
      fun n hn => hkn n (hpn.mem_iff.mp hn), ?_, ?_, ?_, by rw [hk]; exact hne⟩
    · rw [hkn', hki, List.map_map, List.map_map]
      apply List.map_congr_left
      intro q hq
      obtain ⟨h1, h2⟩ := hmem q hq
      simp only [Function.comp]
      rw [h2, List.getElem?_idxOf (hkn _ h1)]
    · have hs : (sortByIndex (names.map fun s => (c.names.idxOf s, s))).Pairwise
          (fun a b => a.1 ≤ b.1) := by
        unfold sortByIndex
        have : Std.Total (fun a b : ℕ × String => a.1 ≤ b.1) := ⟨fun a b => Nat.le_total _ _⟩
        have : IsTrans (ℕ × String) (fun a b : ℕ × String => a.1 ≤ b.1) :=
          ⟨fun a b c => Nat.le_trans⟩
        exact List.pairwise_insertionSort _ _
      have hnd' : (k'.indices).Nodup := by
        rw [hki, List.nodup_map_iff_inj_on]
        · intro a ha b hb hab
          obtain ⟨a1, a2⟩ := hmem a ha
          obtain ⟨b1, b2⟩ := hmem b hb
          have : a.2 = b.2 := by
            have h1 : c.names.idxOf a.2 = c.names.idxOf b.2 := by rw [← a2, ← b2]; exact hab
            exact (List.idxOf_inj (hkn _ a1)).mp h1
          exact Prod.ext hab this
        · rw [hp.nodup_iff]
          exact List.Nodup.map (fun a b hab => (Prod.mk.inj hab).2) hnd
      have h2 : k'.indices.Pairwise (· ≤ ·) := by rw [hki, List.pairwise_map]; exact hs
      have := h2.and hnd'
      exact this.imp fun ⟨h1, h2⟩ => lt_of_le_of_ne h1 h2
    · rw [hklb, hkub]; exact ⟨hl1, hl2, hl3⟩
  · exact hc k' hk'

theorem run_wf {c : Constraints} (r : CReq) (hc : ∀ k ∈ c.items, k.WF c.names) (hi : c.ids.Nodup) :
    (r.run c).1.names = c.names ∧ (∀ k ∈ (r.run c).1.items, k.WF (r.run c).1.names) ∧
      (r.run c).1.ids.Nodup := by
  cases r with
  | add names lb ub id =>
    simp only [CReq.run]
    cases ha : c.add names lb ub id with
    | error er => exact ⟨rfl, hc, hi⟩
    | ok p =>
      obtain ⟨c', i⟩ := p
      obtain ⟨-, -, -, -, -, -, -, -, hn, -, k, -, -, -, -, -, hit⟩ := add_ok ha
      refine ⟨hn, add_wf ha hc, ?_⟩
      simp only [Constraints.ids, hit, dictSetCons_ids]
      split_ifs with hm
      · exact hi
      · rw [List.nodup_append]
        refine ⟨hi, by simp, ?_⟩
        rintro a ha b hb rfl
        rw [List.mem_singleton.mp hb] at ha
        exact hm ha
  | remove id =>
    simp only [CReq.run]
    cases hr : c.remove id with
    | error er => exact ⟨rfl, hc, hi⟩
    | ok c' =>
      obtain ⟨-, rfl⟩ := remove_ok hr
      refine ⟨rfl, fun k hk => hc k (List.mem_filter.mp hk).1, ?_⟩
      exact hi.sublist (List.filter_sublist.map _)

theorem runReqs_wf {c : Constraints} (rs : List CReq) (hc : ∀ k ∈ c.items, k.WF c.names)
    (hi : c.ids.Nodup) :
    (runReqs c rs).1.names = c.names ∧ (∀ k ∈ (runReqs c rs).1.items, k.WF c.names) ∧
      (runReqs c rs).1.ids.Nodup := by
  induction rs generalizing c with
  | nil => exact ⟨rfl, hc, hi⟩
  | cons r rs ih =>
    obtain ⟨s1, s2, s3⟩ := run_wf r hc hi
    obtain ⟨i1, i2, i3⟩ := ih s2 s3
    simp only [runReqs]
    exact ⟨i1.trans s1, fun k hk => s1 ▸ i2 k hk, i3⟩

/-- **C19**: after every history of requests on a new registry, every stored constraint lists distinct
existing variables in column order with their column positions as indices, has `0 ≤ lb ≤ ub ≤` number
of variables and a non-empty id, and the ids are pairwise different. -/
theorem C19_wellformed (names : List String) (rs : List CReq) :
    (∀ k ∈ (runReqs (Constraints.init names) rs).1.items, k.WF names) ∧
    (runReqs (Constraints.init names) rs).1.ids.Nodup := by
  have := runReqs_wf (c := Constraints.init names) rs (by simp [Constraints.init])
    (by simp [Constraints.ids, Constraints.init])
  exact this.2

/-- **C19**, rejected requests: a request that names an unknown or repeated variable, fewer than two
variables, or limits outside `0 ≤ lb ≤ ub ≤ n` is rejected, and a rejected request changes nothing. -/
theorem C19_rejected (c : Constraints) (names : List String) (lb ub : Int) (id : Option String)
    (hbad : (∃ n ∈ names, n ∉ c.names) ∨ ¬ names.Nodup ∨ names.length < 2 ∨ lb < 0 ∨ ub < lb ∨
      (c.names.length : Int) < ub) :
    (∃ er, c.add names lb ub id = .error er) ∧ (CReq.add names lb ub id).run c = (c, []) := by
  cases ha : c.add names lb ub id with
  | error er => exact ⟨⟨er, rfl⟩, by simp [CReq.run, ha]⟩
  | ok p =>
    exfalso
    obtain ⟨c', i⟩ := p
    obtain ⟨-, -, h1, h2, h3, h4, h5, h6, -⟩ := add_ok ha
    rcases hbad with ⟨n, hn, hn'⟩ | h | h | h | h | h
    · exact hn' (h3 n hn)
    · exact h h1
    · omega
    · omega
    · omega
    · omega

/-- Non-vacuity: names given out of order are stored in column order. -/
example : ((runReqs (Constraints.init ["a", "b", "c"]) [.add ["c", "a"] 1 2 none]).1.items).map
    (fun k => (k.names, k.indices, k.lb, k.ub)) = [(["a", "c"], [0, 2], 1, 2)] := by decide +kernel

end Recourse
