import Verif.Model.Settings
import Verif.Examples

/-!
# Solver settings: C55, C61
-/

set_option linter.unusedSectionVars false

namespace Recourse

variable {K : Type} [Field K] [LinearOrder K] [IsStrictOrderedRing K] [FloorRing K]
  {be : Backend} {mt mn : K} {dt dn : XV K} {s s' : Settings K} {r : LimitReq K}

/-! ## Specification -/

/-- Requests that make sense: `None`, infinity, positive numbers. -/
def LimitReq.Valid : LimitReq K → Prop
  | .none => True
  | .inf => True
  | .num x => 0 < x
  | .other => False

/-- The limit asked for; `None` asks for no limit. -/
def LimitReq.asked : LimitReq K → XV K
  | .num x => .fin x
  | _ => .inf

/-- The settings of a new builder: no program yet. -/
def newSettings (be : Backend) (mt mn : K) (dt dn : XV K) : Settings K :=
  { backend := be, maxTime := mt, maxNodes := mn, dfltTime := dt, dfltNodes := dn, hasMip := false,
    time := dt, nodes := dn, timeAttr := none, nodeAttr := none }

/-- Histories of the settings of a builder: programs are built (by assignments of `x`), the three settings
are assigned in any order, successfully or not. -/
inductive Settings.Reachable (be : Backend) (mt mn : K) (dt dn : XV K) : Settings K → Prop
  | new : Settings.Reachable be mt mn dt dn (newSettings be mt mn dt dn)
  | rebuild {s : Settings K} (hr : Settings.Reachable be mt mn dt dn s) : Settings.Reachable be mt mn dt dn s.rebuild
  | time {s : Settings K} (r : LimitReq K) (hr : Settings.Reachable be mt mn dt dn s) :
      Settings.Reachable be mt mn dt dn (s.setTime r).1
  | nodes {s : Settings K} (r : LimitReq K) (hr : Settings.Reachable be mt mn dt dn s) :
      Settings.Reachable be mt mn dt dn (s.setNodes r).1
  | display {s : Settings K} (f : Bool) (hr : Settings.Reachable be mt mn dt dn s) :
      Settings.Reachable be mt mn dt dn (s.setDisplay f).1

/-! ## Lemmas -/

theorem parseLimit_iff {v : XV K} : parseLimit r = .ok v ↔ r.Valid ∧ v = r.asked := by
  cases r <;> simp only [parseLimit, LimitReq.Valid, LimitReq.asked, true_and, false_and, iff_false]
  · constructor
    · intro h; cases h; rfl
    · rintro rfl; rfl
  · split_ifs with h <;> simp [h, eq_comm]
  · constructor
    · intro h; cases h; rfl
    · rintro rfl; rfl
  · intro h; cases h

theorem parseLimit_err (h : ¬ r.Valid) : parseLimit r = .error .value := by
  cases r with
  | none => exact absurd trivial h
  | inf => exact absurd trivial h
  | num x => exact if_neg h
  | other => rfl

theorem setTime_eq : s.setTime r =
    if s.hasMip = true ∧ (parseLimit r).toOption.isSome = true then
      ({ s.putTime r.asked with timeAttr := some r.asked }, .ok ()) else (s, .error .value) := by
  unfold Settings.setTime
  by_cases hv : r.Valid
  · have h1 : parseLimit r = .ok r.asked := parseLimit_iff.mpr ⟨hv, rfl⟩
    rw [h1]
    cases s.hasMip <;> rfl
  · rw [parseLimit_err hv]
    dsimp only
    rw [if_neg (fun h => by cases h.2)]

theorem setNodes_eq : s.setNodes r =
    if s.hasMip = true ∧ (parseLimit r).toOption.isSome = true then
      ({ s.putNodes r.asked with nodeAttr := some (.limit r.asked) }, .ok ()) else (s, .error .value) := by
  unfold Settings.setNodes
  by_cases hv : r.Valid
  · have h1 : parseLimit r = .ok r.asked := parseLimit_iff.mpr ⟨hv, rfl⟩
    rw [h1]
    cases s.hasMip <;> rfl
  · rw [parseLimit_err hv]
    dsimp only
    rw [if_neg (fun h => by cases h.2)]

theorem valid_iff : (parseLimit r).toOption.isSome = true ↔ r.Valid := by
  by_cases hv : r.Valid
  · rw [parseLimit_iff.mpr ⟨hv, rfl⟩]; exact ⟨fun _ => hv, fun _ => rfl⟩
  · rw [parseLimit_err hv]; exact ⟨(fun h => by cases h), fun h => absurd h hv⟩

theorem putTime_fixed (v : XV K) : (s.putTime v).backend = s.backend ∧ (s.putTime v).maxTime = s.maxTime ∧
    (s.putTime v).maxNodes = s.maxNodes ∧ (s.putTime v).dfltTime = s.dfltTime ∧ (s.putTime v).dfltNodes = s.dfltNodes ∧
    (s.putTime v).hasMip = s.hasMip ∧ (s.putTime v).nodes = s.nodes ∧ (s.putTime v).nodeAttr = s.nodeAttr := by
  unfold Settings.putTime
  cases s.backend <;> exact ⟨rfl, rfl, rfl, rfl, rfl, rfl, rfl, rfl⟩

theorem putNodes_fixed (v : XV K) : (s.putNodes v).backend = s.backend ∧ (s.putNodes v).maxTime = s.maxTime ∧
    (s.putNodes v).maxNodes = s.maxNodes ∧ (s.putNodes v).dfltTime = s.dfltTime ∧ (s.putNodes v).dfltNodes = s.dfltNodes ∧
    (s.putNodes v).hasMip = s.hasMip ∧ (s.putNodes v).time = s.time ∧ (s.putNodes v).timeAttr = s.timeAttr := by
  unfold Settings.putNodes
  cases s.backend <;> cases v <;> exact ⟨rfl, rfl, rfl, rfl, rfl, rfl, rfl, rfl⟩

theorem Settings.Reachable.consts (h : s.Reachable be mt mn dt dn) :
    s.backend = be ∧ s.maxTime = mt ∧ s.maxNodes = mn ∧ s.dfltTime = dt ∧ s.dfltNodes = dn := by
  induction h with
  | new => exact ⟨rfl, rfl, rfl, rfl, rfl⟩
  | rebuild hr ih => exact ih
  | @time s r hr ih =>
    rw [setTime_eq]
    obtain ⟨h1, h2, h3, h4, h5, -⟩ := putTime_fixed (s := s) r.asked
    split_ifs
    · exact ⟨h1.trans ih.1, h2.trans ih.2.1, h3.trans ih.2.2.1, h4.trans ih.2.2.2.1, h5.trans ih.2.2.2.2⟩
    · exact ih
  | @nodes s r hr ih =>
    rw [setNodes_eq]
    obtain ⟨h1, h2, h3, h4, h5, -⟩ := putNodes_fixed (s := s) r.asked
    split_ifs
    · exact ⟨h1.trans ih.1, h2.trans ih.2.1, h3.trans ih.2.2.1, h4.trans ih.2.2.2.1, h5.trans ih.2.2.2.2⟩
    · exact ih
  | @display s f hr ih =>
    unfold Settings.setDisplay
    split_ifs <;> exact ih

/-! ## C55 -/

/-- **C55** (acceptance).  Once there is a program, exactly the valid requests are accepted; a rejected request
changes nothing. -/
theorem C55_accepts (s : Settings K) (hm : s.hasMip = true) (r : LimitReq K) :
    ((s.setTime r).2 = .ok () ↔ r.Valid) ∧ ((s.setNodes r).2 = .ok () ↔ r.Valid) ∧
    (¬ r.Valid → s.setTime r = (s, .error .value) ∧ s.setNodes r = (s, .error .value)) := by
  refine ⟨?_, ?_, fun hv => ⟨?_, ?_⟩⟩
  · rw [setTime_eq]
    split_ifs with h
    · exact ⟨fun _ => valid_iff.mp h.2, fun _ => rfl⟩
    · exact ⟨(fun h' => by cases h'), fun hv => absurd ⟨hm, valid_iff.mpr hv⟩ h⟩
  · rw [setNodes_eq]
    split_ifs with h
    · exact ⟨fun _ => valid_iff.mp h.2, fun _ => rfl⟩
    · exact ⟨(fun h' => by cases h'), fun hv => absurd ⟨hm, valid_iff.mpr hv⟩ h⟩
  · rw [setTime_eq, if_neg (fun h => hv (valid_iff.mp h.2))]
  · rw [setNodes_eq, if_neg (fun h => hv (valid_iff.mp h.2))]

/-- **C55** (CPLEX).  After every history: the time limit in force is the smaller of the request and the
largest admissible value (that value itself for `None` and infinity); the node limit likewise, rounded down
to an integer first.  The other limit stays. -/
theorem C55_cplex (h : s.Reachable .cpx mt mn dt dn) :
    ((s.setTime r).2 = .ok () → (s.setTime r).1.nodes = s.nodes ∧
      (∀ x, r = .num x → (s.setTime r).1.time = .fin (min x mt)) ∧
      (r = .none ∨ r = .inf → (s.setTime r).1.time = .fin mt)) ∧
    ((s.setNodes r).2 = .ok () → (s.setNodes r).1.time = s.time ∧
      (∀ x, r = .num x → (s.setNodes r).1.nodes = .fin (min (⌊x⌋ : K) mn)) ∧
      (r = .none ∨ r = .inf → (s.setNodes r).1.nodes = .fin mn)) := by
  obtain ⟨hb, hmt, hmn, -, -⟩ := h.consts
  constructor
  · rw [setTime_eq]
    split_ifs with hv
    · refine fun _ => ⟨(putTime_fixed _).2.2.2.2.2.2.1, ?_, ?_⟩
      · rintro x rfl
        simp only [Settings.putTime, hb, LimitReq.asked, clip, hmt]
      · rintro (rfl | rfl) <;> simp only [Settings.putTime, hb, LimitReq.asked, clip, hmt]
    · intro h; cases h
  · rw [setNodes_eq]
    split_ifs with hv
    · refine fun _ => ⟨(putNodes_fixed _).2.2.2.2.2.2.1, ?_, ?_⟩
      · rintro x rfl
        have hx : 0 < x := valid_iff.mp hv.2
        have ht : Recourse.trunc x = ⌊x⌋ := by
          unfold Recourse.trunc
          rw [if_pos hx.le]
        simp only [Settings.putNodes, hb, LimitReq.asked, XV.trunc, clip, hmn, ht]
      · rintro (rfl | rfl) <;> simp only [Settings.putNodes, hb, LimitReq.asked, XV.trunc, clip, hmn]
    · intro h; cases h

/-- **C55** (Python-MIP, partial).  After every history the time limit in force is the one asked for, and so
is a finite node limit, rounded down to an integer.  Missing from the full property: requests of `None` or
infinity for the node limit (`C55_nodes_refuted`), and node limits below 1 (`C55_zero_refuted`). -/
theorem C55_pymip_partial (h : s.Reachable .pymip mt mn dt dn) :
    ((s.setTime r).2 = .ok () → (s.setTime r).1.nodes = s.nodes ∧
      (∀ x, r = .num x → (s.setTime r).1.time = .fin x) ∧
      (r = .none ∨ r = .inf → (s.setTime r).1.time = .inf)) ∧
    ((s.setNodes r).2 = .ok () → (s.setNodes r).1.time = s.time ∧
      (∀ x, r = .num x → (s.setNodes r).1.nodes = .fin (⌊x⌋ : K))) := by
  obtain ⟨hb, -⟩ := h.consts
  constructor
  · rw [setTime_eq]
    split_ifs with hv
    · refine fun _ => ⟨(putTime_fixed _).2.2.2.2.2.2.1, ?_, ?_⟩
      · rintro x rfl
        simp only [Settings.putTime, hb, LimitReq.asked]
      · rintro (rfl | rfl) <;> simp only [Settings.putTime, hb, LimitReq.asked]
    · intro h; cases h
  · rw [setNodes_eq]
    split_ifs with hv
    · refine fun _ => ⟨(putNodes_fixed _).2.2.2.2.2.2.1, ?_⟩
      rintro x rfl
      have hx : 0 < x := valid_iff.mp hv.2
      have ht : Recourse.trunc x = ⌊x⌋ := by
        unfold Recourse.trunc
        rw [if_pos hx.le]
      simp only [Settings.putNodes, hb, LimitReq.asked, ht]
    · intro h; cases h

/-- A call `fit(time_limit = t, node_limit = n)` with valid limits on a builder with a program does not raise,
and with CPLEX the limits it solves under do not depend on the history. -/
theorem C55_fit (h : s.Reachable .cpx mt mn dt dn) (hm : s.hasMip = true) (f : Bool) {t n : LimitReq K}
    (ht : t.Valid) (hn : n.Valid) : (s.prepare f t n).2 = .ok () ∧
    ∀ s2 : Settings K, s2.Reachable .cpx mt mn dt dn → s2.hasMip = true → ∀ f2 : Bool,
      (s.prepare f t n).1.time = (s2.prepare f2 t n).1.time ∧
      (s.prepare f t n).1.nodes = (s2.prepare f2 t n).1.nodes := by
  have key : ∀ s2 : Settings K, s2.Reachable .cpx mt mn dt dn → s2.hasMip = true → ∀ f2 : Bool,
      (s2.prepare f2 t n).2 = .ok () ∧ (s2.prepare f2 t n).1.time = clip mt t.asked ∧
      (s2.prepare f2 t n).1.nodes = clip mn n.asked.trunc := by
    intro s2 h2 hm2 f2
    obtain ⟨hb, hmt, hmn, -, -⟩ := h2.consts
    unfold Settings.prepare Settings.setDisplay
    rw [if_pos hm2]
    dsimp only
    rw [setTime_eq, if_pos ⟨hm2, valid_iff.mpr ht⟩]
    dsimp only
    rw [setNodes_eq, if_pos ⟨(putTime_fixed _).2.2.2.2.2.1.trans hm2, valid_iff.mpr hn⟩]
    refine ⟨rfl, ?_, ?_⟩
    · simp only [Settings.putTime, Settings.putNodes, hb, hmt]
    · simp only [Settings.putTime, Settings.putNodes, hb, hmn]
  refine ⟨(key s h hm f).1, fun s2 h2 hm2 f2 => ?_⟩
  rw [(key s h hm f).2.1, (key s h hm f).2.2, (key s2 h2 hm2 f2).2.1, (key s2 h2 hm2 f2).2.2]
  exact ⟨rfl, rfl⟩

/-- The full C55 is false for Python-MIP: after `fit(node_limit = 5)` a call `fit()` without limits succeeds but
still solves under 5 nodes. -/
theorem C55_nodes_refuted (f : Bool) : ∃ s : Settings ℚ, s.Reachable .pymip 1000 1000 .inf (.fin 1000) ∧
    s.hasMip = true ∧ (s.prepare f .none .none).2 = .ok () ∧
    (s.prepare f .none .none).1.nodes = .fin 5 := by
  refine ⟨((newSettings .pymip 1000 1000 .inf (.fin 1000)).rebuild.setNodes (.num 5)).1, .nodes _ (.rebuild .new), ?_⟩
  cases f <;> decide +kernel

/-- The full C55 is false: the positive node limit 1/2 is accepted, and 0 nodes are in force. -/
theorem C55_zero_refuted (be : Backend) : ∃ s : Settings ℚ, s.Reachable be 1000 1000 .inf (.fin 1000) ∧
    (s.setNodes (.num (1 / 2))).2 = .ok () ∧ (s.setNodes (.num (1 / 2))).1.nodes = .fin 0 := by
  refine ⟨(newSettings be 1000 1000 .inf (.fin 1000)).rebuild, .rebuild .new, ?_⟩
  cases be <;> decide +kernel

/-- **C55** and **C61** over a later point: assigning a point builds a new program, which has the default limits; the limits set before still
read back as if they were in force.  So limits have to be passed to `fit` or set again for every point. -/
theorem C55_rebuild_refuted (h : s.Reachable be mt mn dt dn) :
    ((s.setTime r).2 = .ok () → (s.setTime r).1.rebuild.time = dt ∧ (s.setTime r).1.rebuild.timeAttr = some r.asked) ∧
    ((s.setNodes r).2 = .ok () → (s.setNodes r).1.rebuild.nodes = dn ∧
      (s.setNodes r).1.rebuild.nodeAttr = some (.limit r.asked)) := by
  obtain ⟨-, -, -, hdt, hdn⟩ := h.consts
  constructor
  · rw [setTime_eq]
    split_ifs with hv
    · exact fun _ => ⟨((putTime_fixed (s := s) r.asked).2.2.2.1).trans hdt, rfl⟩
    · intro h; cases h
  · rw [setNodes_eq]
    split_ifs with hv
    · exact fun _ => ⟨((putNodes_fixed (s := s) r.asked).2.2.2.2.1).trans hdn, rfl⟩
    · intro h; cases h

/-- Non-vacuity: a CPLEX builder with a program and an earlier time limit; a request above the largest
admissible value is clipped. -/
example : ∃ s : Settings ℚ, s.Reachable .cpx 1000 1000 (.fin 1000) (.fin 1000) ∧ s.hasMip = true ∧
    s.time = .fin 3 ∧ (s.setTime (.num 2000)).1.time = .fin 1000 ∧ (s.setNodes (.num (7 / 2))).1.nodes = .fin 3 :=
  ⟨((newSettings .cpx 1000 1000 (.fin 1000) (.fin 1000)).rebuild.setTime (.num 3)).1,
    .time _ (.rebuild .new), by decide +kernel⟩

/-! ## C61 -/

/-- **C61** (partial).  After every history an accepted time limit reads back as asked for, and so does a
node limit, as long as neither they nor `mip_display` are assigned again.  Missing from the full property:
`mip_display`, and node limits after an assignment of `mip_display` (`C61_display_refuted`). -/
theorem C61_readback_partial (s : Settings K) (r : LimitReq K) :
    ((s.setTime r).2 = .ok () → (s.setTime r).1.timeAttr = some r.asked ∧
      ∀ (r' : LimitReq K) (f : Bool), ((s.setTime r).1.setNodes r').1.timeAttr = some r.asked ∧
        ((s.setTime r).1.setDisplay f).1.timeAttr = some r.asked ∧ (s.setTime r).1.rebuild.timeAttr = some r.asked) ∧
    ((s.setNodes r).2 = .ok () → (s.setNodes r).1.nodeAttr = some (.limit r.asked) ∧
      ∀ (r' : LimitReq K), ((s.setNodes r).1.setTime r').1.nodeAttr = some (.limit r.asked) ∧
        (s.setNodes r).1.rebuild.nodeAttr = some (.limit r.asked)) := by
  constructor
  · rw [setTime_eq]
    split_ifs with hv
    · refine fun _ => ⟨rfl, fun r' f => ⟨?_, ?_, rfl⟩⟩
      · rw [setNodes_eq]
        split_ifs
        · exact (putNodes_fixed _).2.2.2.2.2.2.2
        · rfl
      · unfold Settings.setDisplay
        split_ifs <;> rfl
    · intro h; cases h
  · rw [setNodes_eq]
    split_ifs with hv
    · refine fun _ => ⟨rfl, fun r' => ⟨?_, rfl⟩⟩
      rw [setTime_eq]
      split_ifs
      · exact (putTime_fixed _).2.2.2.2.2.2.2
      · rfl
    · intro h; cases h

/-- The full C61 is false: reading `mip_display` always raises `AttributeError`, and every accepted assignment
of `mip_display` makes `mip_node_limit` read as the flag (until the next assignment of `mip_node_limit`),
while the limit in force stays. -/
theorem C61_display_refuted (s : Settings K) (hm : s.hasMip = true) (f : Bool) :
    (s.setDisplay f).2 = .ok () ∧ (s.setDisplay f).1.getDisplay = .error .attribute ∧
    (s.setDisplay f).1.nodeAttr = some (.flag f) ∧ (s.setDisplay f).1.nodes = s.nodes := by
  unfold Settings.setDisplay
  rw [if_pos hm]
  exact ⟨rfl, rfl, rfl, rfl⟩

end Recourse
