import Verif.Props.Units
import Verif.Props.FlipEx

/-!
# Units of measurement do not matter (C83): counterexamples and examples
-/

set_option linter.unusedSectionVars false

namespace Recourse

/-- Half the numbers. -/
def u2 : ℕ → ℚ := fun _ => 1 / 2

/-- No shift. -/
def z0 : ℕ → ℚ := fun _ => 0

/-- The full C83 is false for integer columns: the data `0, 4`, bounds at the quartiles, and the score `a - 4`.  The
quartiles are 1 and 3, and there is no recourse; in units twice as large the quartiles 1/2 and 3/2 are rounded
outwards, and moving from 0 to 2 (that is 4 in the old units) is recourse. -/
theorem C83_integers_refuted (be : Backend) (ct : CostType) : ∃ A A' : ActionSet ℚ,
    mkActionSet [[0], [4]] ["a"] 1 [] (.tuple [.int 25, .int 75, .str "percentile"]) (.str "relative") = .ok A ∧
    mkActionSet ([[0], [4]].map (inUnits u2 z0)) ["a"] 1 [] (.tuple [.int 25, .int 75, .str "percentile"])
      (.str "relative") = .ok A' ∧
    ∃ b d : Builder ℚ, mkBuilder be ct A [1] (-4) = .ok b ∧
      mkBuilder be ct A' (coefsInUnits u2 [1]) (interceptInUnits u2 z0 [1] (-4)) = .ok d ∧
    ∃ b1 d1, b.setX exExt [0] = (b1, .ok ()) ∧ d.setX exExt (inUnits u2 z0 [0]) = (d1, .ok ()) ∧
    ∀ o : Oracle ℚ, o.Exact → ∃ b' i d' i', b1.fit o = .ok (b', i) ∧ d1.fit o = .ok (d', i') ∧ i.feasible = false ∧
      i'.feasible = true := by
  have key : ∀ be ct, ∃ A : ActionSet ℚ, mkActionSet [[0], [4]] ["a"] 1 []
        (.tuple [.int 25, .int 75, .str "percentile"]) (.str "relative") = .ok A ∧
      ∃ A' : ActionSet ℚ, mkActionSet ([[0], [4]].map (inUnits u2 z0)) ["a"] 1 []
        (.tuple [.int 25, .int 75, .str "percentile"]) (.str "relative") = .ok A' ∧
      ∃ b : Builder ℚ, mkBuilder be ct A [1] (-4) = .ok b ∧
      ∃ d : Builder ℚ, mkBuilder be ct A' (coefsInUnits u2 [1]) (interceptInUnits u2 z0 [1] (-4)) = .ok d ∧
      ((b.setX exExt [0]).2 = .ok () ∧ (d.setX exExt (inUnits u2 z0 [0])).2 = .ok () ∧
       admitted (b.buildArgs [0] (b.setX exExt [0]).1.feats) (fun _ => true) = [] ∧
       admitted (d.buildArgs (inUnits u2 z0 [0]) (d.setX exExt (inUnits u2 z0 [0])).1.feats) (fun _ => true) ≠ []) := by
    intro be ct; cases be <;> cases ct <;> decide +kernel
  obtain ⟨A, hA, A', hA', b, hb, d, hd, h1, h2, h3, h4⟩ := key be ct
  have rb : b.Reachable exExt := .mk (.mk hA) hb
  have rd : d.Reachable exExt := .mk (.mk hA') hd
  refine ⟨A, A', hA, hA', b, d, hb, hd, _, _, Prod.ext rfl h1, Prod.ext rfl h2, fun o ho => ?_⟩
  obtain ⟨b1', feats, g1, -, g2, b', i, g3, g4⟩ := exSolve exExt_order rb h1 ho
  obtain ⟨d1', feats', k1, -, k2, d', i', k3, k4⟩ := exSolve exExt_order rd h2 ho
  rw [g1, k1]
  refine ⟨b', i, d', i', g3, k3, ?_, ?_⟩
  · rcases g4 with ⟨-, h⟩ | ⟨κ, hκ, -, -, -⟩
    · rw [h]; rfl
    · rw [← g2] at hκ
      unfold optChoices at hκ
      rw [h3] at hκ
      simp at hκ
  · rcases k4 with ⟨h, -⟩ | ⟨κ, -, -, hf, -⟩
    · rw [k2] at h4; exact absurd h h4
    · exact hf

/-- An action set with one real feature with the data `values` and three grid values (`step_size = 0.5`). -/
def exReal (values : List ℚ) : Except Err (ActionSet ℚ) := do
  let A ← mkActionSet (values.map fun v => [v]) ["a"] 1 [] (.tuple [.int 0, .int 100, .str "percentile"]) (.str "relative")
  let A := (A.setElemAttr "a" "step_size" (.flt (1 / 2))).1
  let e ← A.elems[0]?.elim (.error .index) .ok
  let e ← e.updateGrid
  .ok { A with elems := A.elems.set 0 e }

theorem exReal_reachable {ext : Ext ℚ} {values : List ℚ} {A : ActionSet ℚ} (h : exReal values = .ok A) :
    A.Reachable ext := by
  unfold exReal at h
  simp only [bind_ok_iff] at h
  obtain ⟨A, hA, e, he, e', he', h⟩ := h
  rw [← Except.ok.inj h]
  refine .updateGrid (.setElem "a" "step_size" (.flt (1 / 2)) (.mk hA)) (j := 0) (e := e) ?_ he'
  cases hz : ((A.setElemAttr "a" "step_size" (.flt (1 / 2))).1.elems[0]?) with
  | none => rw [hz] at he; cases he
  | some e0 => rw [hz] at he; exact congrArg some (Except.ok.inj he)

/-- All back ends. -/
def allBackends : List Backend := [.cpx, .pymip]

/-- All cost types. -/
def allCostTypes : List CostType := [.total, .loc, .max]

theorem mem_allBackends (be : Backend) : be ∈ allBackends := by cases be <;> simp [allBackends]

theorem mem_allCostTypes (ct : CostType) : ct ∈ allCostTypes := by cases ct <;> simp [allCostTypes]

/-- `InUnits` for sets with one feature, evaluated. -/
def unitsB (u z : ℚ) (A A' : ActionSet ℚ) : Bool :=
  decide (0 < u) && decide (A'.yDesired = A.yDesired) && decide (A'.names = A.names) && decide (A'.elems.length = 1) &&
  decide (A.elems.length = 1) && decide (A.cons.items.length = 0) && decide (A'.cons.items.length = 0) &&
  decide (A'.elems.map (·.actionable) = A.elems.map (·.actionable)) &&
  decide (A'.elems.map (·.stepDir) = A.elems.map (·.stepDir)) &&
  decide (A'.elems.map (·.grid.vals) = A.elems.map fun e => e.grid.vals.map fun v => u * v + z)

theorem units_of_b {u z : ℚ} {A A' : ActionSet ℚ} (h : unitsB u z A A' = true) : InUnits (fun _ => u) (fun _ => z) A A' := by
  unfold unitsB at h
  simp only [Bool.and_eq_true, decide_eq_true_eq] at h
  obtain ⟨⟨⟨⟨⟨⟨⟨⟨⟨h0, h1⟩, h2⟩, h3⟩, h4⟩, h5⟩, h6⟩, h7⟩, h8⟩, h9⟩ := h
  refine ⟨fun _ => h0, h1, h2, by rw [h3, h4], ⟨?_, ?_⟩, ?_⟩
  · rw [List.length_eq_zero_iff.mp h5, List.length_eq_zero_iff.mp h6]
  · exact Or.inl (List.length_eq_zero_iff.mp h5)
  · intro j e e' he he'
    obtain ⟨f, hf⟩ := List.length_eq_one_iff.mp h4
    obtain ⟨f', hf'⟩ := List.length_eq_one_iff.mp h3
    rw [hf] at he h7 h8 h9
    rw [hf'] at he' h7 h8 h9
    cases j with
    | zero =>
      simp only [List.getElem?_cons_zero, Option.some.injEq] at he he'
      rw [← he, ← he']
      simp only [List.map_cons, List.map_nil, List.cons.injEq, and_true] at h7 h8 h9
      exact ⟨h7, h8, h9⟩
    | succ j => simp at he

/-- One billionth. -/
def uNano : ℕ → ℚ := fun _ => 1 / 10 ^ 9

/-- The full C83 is false for very small numbers: the data `1/2, 5/2`.  The builder accepts the point `1/2`; in units a billion times
as large all values are within numpy's tolerance of each other, and assigning the same point raises `ValueError`. -/
theorem C83_tolerance_refuted (be : Backend) (ct : CostType) : ∃ A A' : ActionSet ℚ, A.Reachable exExt ∧
    A'.Reachable exExt ∧ exReal [1 / 2, 5 / 2] = .ok A ∧
    exReal (inUnits uNano z0 [1 / 2] ++ inUnits uNano z0 [5 / 2]) = .ok A' ∧ InUnits uNano z0 A A' ∧
    ∃ b d : Builder ℚ, mkBuilder be ct A [1] (-2) = .ok b ∧
      mkBuilder be ct A' (coefsInUnits uNano [1]) (interceptInUnits uNano z0 [1] (-2)) = .ok d ∧
    (b.setX exExt [1 / 2]).2 = .ok () ∧ (d.setX exExt (inUnits uNano z0 [1 / 2])).2 = .error .value := by
  have key : ∃ A : ActionSet ℚ, exReal [1 / 2, 5 / 2] = .ok A ∧
      ∃ A' : ActionSet ℚ, exReal (inUnits uNano z0 [1 / 2] ++ inUnits uNano z0 [5 / 2]) = .ok A' ∧
      (unitsB (1 / 10 ^ 9) 0 A A' = true ∧
      ∀ be ∈ allBackends, ∀ ct ∈ allCostTypes, ∃ b : Builder ℚ, mkBuilder be ct A [1] (-2) = .ok b ∧
      ∃ d : Builder ℚ, mkBuilder be ct A' (coefsInUnits uNano [1]) (interceptInUnits uNano z0 [1] (-2)) = .ok d ∧
       ((b.setX exExt [1 / 2]).2 = .ok () ∧ (d.setX exExt (inUnits uNano z0 [1 / 2])).2 = .error .value)) := by
    decide +kernel
  obtain ⟨A, hA, A', hA', hu, hk⟩ := key
  obtain ⟨b, hb, d, hd, h⟩ := hk be (mem_allBackends be) ct (mem_allCostTypes ct)
  exact ⟨A, A', exReal_reachable hA, exReal_reachable hA', hA, hA', units_of_b hu, b, d, hb, hd, h⟩

/-- A density that is a density in all units: constant, with total mass 1 over the range of the data. -/
def unifExt : Ext ℚ := { exExt with kde := fun v => .ok fun _ => 1 / (npMax v - npMin v) }

/-- Half the numbers, and 1 more. -/
def z1 : ℕ → ℚ := fun _ => 1

set_option synthInstance.maxHeartbeats 400000 in
set_option synthInstance.maxSize 4000 in
/-- The two sets and builders of the examples. -/
theorem exUnits : ∃ A : ActionSet ℚ, exReal [1 / 2, 5 / 2] = .ok A ∧
      ∃ A' : ActionSet ℚ, exReal (inUnits u2 z1 [1 / 2] ++ inUnits u2 z1 [5 / 2]) = .ok A' ∧
      (unitsB (1 / 2) 1 A A' = true ∧ A'.elems.map (·.values) = A.elems.map (fun e => e.values.map fun v => 1 / 2 * v + 1) ∧
        A.elems.all (fun e => e.cache.isNone) = true ∧ A'.elems.all (fun e => e.cache.isNone) = true ∧
      ∀ be ∈ allBackends, ∀ ct ∈ allCostTypes, ∃ b : Builder ℚ, mkBuilder be ct A [1] (-2) = .ok b ∧
      ∃ d : Builder ℚ, mkBuilder be ct A' (coefsInUnits u2 [1]) (interceptInUnits u2 z1 [1] (-2)) = .ok d ∧
       ((b.setX exExt [1 / 2]).2 = .ok () ∧ (d.setX exExt (inUnits u2 z1 [1 / 2])).2 = .ok () ∧
        regularB exExt b [1 / 2] = true ∧ regularB exExt d (inUnits u2 z1 [1 / 2]) = true ∧
        unitsB (1 / 2) 1 b.aset d.aset = true ∧
        b.aset.elems.all (fun e => e.cache.isNone) = true ∧ d.aset.elems.all (fun e => e.cache.isNone) = true ∧
        (1 : ℚ) * (dot b.coefs [1 / 2] + b.intercept) < 0 ∧ b.aset.yDesired = 1 ∧ b.maxItems = d.maxItems ∧
        admitted (b.buildArgs [1 / 2] (b.setX exExt [1 / 2]).1.feats) (fun _ => true) ≠ [] ∧
        (b.setX unifExt [1 / 2]).2 = .ok () ∧ (d.setX unifExt (inUnits u2 z1 [1 / 2])).2 = .ok () ∧
        admitted (b.buildArgs [1 / 2] (b.setX unifExt [1 / 2]).1.feats) (fun _ => true) ≠ [] ∧
        ∀ κ ∈ optChoices (b.buildArgs [1 / 2] (b.setX unifExt [1 / 2]).1.feats) (fun _ => true),
        ∀ κ' ∈ optChoices (d.buildArgs (inUnits u2 z1 [1 / 2]) (d.setX unifExt (inUnits u2 z1 [1 / 2])).1.feats)
          (fun _ => true),
          (if b.costType = .max then choiceMax (b.setX unifExt [1 / 2]).1.feats κ
            else choiceSum (b.setX unifExt [1 / 2]).1.feats κ) ≠
          (if d.costType = .max then choiceMax (d.setX unifExt (inUnits u2 z1 [1 / 2])).1.feats κ'
            else choiceSum (d.setX unifExt (inUnits u2 z1 [1 / 2])).1.feats κ'))) := by
  decide +kernel

theorem exUnits_percentiles {A A' : ActionSet ℚ} (hu : InUnits (fun _ => 1 / 2) (fun _ => 1) A A')
    (hA : A.Reachable exExt) (h : A.elems.all (fun e => e.cache.isNone) = true)
    (h' : A'.elems.all (fun e => e.cache.isNone) = true) : SamePercentiles exExt (fun _ => 1 / 2) (fun _ => 1) A A' := by
  intro j e e' he he' v
  have hc := List.all_eq_true.mp h e (List.mem_of_getElem? he)
  have hc' := List.all_eq_true.mp h' e' (List.mem_of_getElem? he')
  rw [Option.isNone_iff_eq_none] at hc hc'
  have hg := (hu.feature j e e' he he').2.2
  have hne : e.grid.vals ≠ [] := (hA.wf.elems e (List.mem_of_getElem? he)).inv.2.ne
  have hk : KdeConverts exExt (1 / 2) 1 := fun values =>
    ⟨fun _ h => (by cases h), fun f hf => ⟨_, rfl, fun v => congrFun (Except.ok.inj hf) v⟩⟩
  rw [← percentile_conv (by norm_num) hk hc hne v]
  have hc2 : (e.inUnits (1 / 2) 1).cache = none := hc
  unfold Elem.percentile Elem.table
  rw [hc', hc2]
  dsimp only
  unfold Elem.freshTable Elem.newTable
  rw [hg]
  rfl

/-- Non-vacuity of C83: the data `1/2, 5/2`, the score `a - 2`, the person `1/2`, halved and increased by 1.  All hypotheses hold in both units,
and there is recourse. -/
theorem C83_example (be : Backend) (ct : CostType) : ∃ b d b1 d1 : Builder ℚ, b.Reachable exExt ∧ d.Reachable exExt ∧
    InUnits u2 z1 b.aset d.aset ∧ SamePercentiles exExt u2 z1 b.aset d.aset ∧ d.coefs = coefsInUnits u2 b.coefs ∧
    d.intercept = interceptInUnits u2 z1 b.coefs b.intercept ∧ d.maxItems = b.maxItems ∧ b.costType = ct ∧
    d.costType = ct ∧ Regular exExt b [1 / 2] ∧ Regular exExt d (inUnits u2 z1 [1 / 2]) ∧ Denied b [1 / 2] ∧
    b.setX exExt [1 / 2] = (b1, .ok ()) ∧ d.setX exExt (inUnits u2 z1 [1 / 2]) = (d1, .ok ()) ∧
    ∀ o : Oracle ℚ, o.Exact → ∃ b' i, b1.fit o = .ok (b', i) ∧ i.feasible = true := by
  obtain ⟨A, hA, A', hA', -, -, -, -, hk⟩ := exUnits
  obtain ⟨b, hb, d, hd, h1, h2, h3, h4, h5, h6, h6', h7, h8, h9, h10, -⟩ :=
    hk be (mem_allBackends be) ct (mem_allCostTypes ct)
  have rb : b.Reachable exExt := .mk (exReal_reachable hA) hb
  have rd : d.Reachable exExt := .mk (exReal_reachable hA') hd
  obtain ⟨-, p1, p2, p3, -⟩ := mkBuilder_parts hb
  obtain ⟨-, q1, q2, q3, -⟩ := mkBuilder_parts hd
  have hu := units_of_b h5
  refine ⟨b, d, _, _, rb, rd, hu, exUnits_percentiles hu rb.ok.aset h6 h6', ?_, ?_, h9.symm, p3, q3,
    regular_of_b rb.ok exExt_pos h3, regular_of_b rd.ok exExt_pos h4, ?_, Prod.ext rfl h1, Prod.ext rfl h2,
    fun o ho => ?_⟩
  · rw [q1, p1]
  · rw [q2, p1, p2]
  · unfold Denied; rw [h8]; exact_mod_cast h7
  · obtain ⟨b1', feats, g1, -, g2, b', i, g3, g4⟩ := exSolve exExt_order rb h1 ho
    rw [g1]
    refine ⟨b', i, g3, ?_⟩
    rcases g4 with ⟨h, -⟩ | ⟨κ, -, -, hf, -⟩
    · rw [g2] at h10; exact absurd h h10
    · exact hf

theorem unifExt_order : SetOrderOk unifExt := exExt_order

/-- The full C83 is false for costs: the same data, score and person, with a density that follows the units (constant with
mass 1 over the range of the data).  The buffers `1e-6` that are added to the scores do not follow the units, and the reported costs
differ. -/
theorem C83_scale_costs_refuted (be : Backend) (ct : CostType) : ∃ b d b1 d1 : Builder ℚ, b.Reachable unifExt ∧
    d.Reachable unifExt ∧ InUnits u2 z1 b.aset d.aset ∧ d.coefs = coefsInUnits u2 b.coefs ∧
    d.intercept = interceptInUnits u2 z1 b.coefs b.intercept ∧ b.costType = ct ∧ d.costType = ct ∧
    b.setX unifExt [1 / 2] = (b1, .ok ()) ∧ d.setX unifExt (inUnits u2 z1 [1 / 2]) = (d1, .ok ()) ∧
    ∀ o : Oracle ℚ, o.Exact → ∃ b' i d' i', b1.fit o = .ok (b', i) ∧ d1.fit o = .ok (d', i') ∧ i.feasible = true ∧
      i'.cost ≠ i.cost := by
  obtain ⟨A, hA, A', hA', -, -, -, -, hk⟩ := exUnits
  obtain ⟨b, hb, d, hd, -, -, -, -, h5, -, -, -, -, -, -, h1, h2, h3, h4⟩ :=
    hk be (mem_allBackends be) ct (mem_allCostTypes ct)
  have rb : b.Reachable unifExt := .mk (exReal_reachable hA) hb
  have rd : d.Reachable unifExt := .mk (exReal_reachable hA') hd
  obtain ⟨-, p1, p2, p3, -⟩ := mkBuilder_parts hb
  obtain ⟨-, q1, q2, q3, -⟩ := mkBuilder_parts hd
  refine ⟨b, d, _, _, rb, rd, units_of_b h5, by rw [q1, p1], by rw [q2, p1, p2], p3, q3, Prod.ext rfl h1,
    Prod.ext rfl h2, fun o ho => ?_⟩
  obtain ⟨b1', feats, g1, -, g2, b', i, g3, g4⟩ := exSolve unifExt_order rb h1 ho
  obtain ⟨d1', feats', k1, -, k2, d', i', k3, k4⟩ := exSolve unifExt_order rd h2 ho
  rw [g1, k1]
  rw [g2] at h3 h4
  rw [k2] at h4
  refine ⟨b', i, d', i', g3, k3, ?_⟩
  rcases g4 with ⟨h, -⟩ | ⟨κ, hκ, -, hf, -, -, hc, -⟩
  · exact absurd h h3
  · refine ⟨hf, ?_⟩
    rcases k4 with ⟨-, h⟩ | ⟨κ', hκ', -, hf', -, -, hc', -⟩
    · rw [h, hc]; intro he; cases he
    · rw [hc, hc']
      intro he
      exact h4 κ hκ κ' hκ' (XV.fin.inj he).symm

/-- The error of a result. -/
def errorOf {α : Type} : Except Err α → Option Err
  | .error e => some e
  | .ok _ => none

theorem errorOf_some {α : Type} {r : Except Err α} {e : Err} (h : errorOf r = some e) : r = .error e := by
  cases r with
  | error e' => rw [Option.some.inj h]
  | ok a => cases h

/-- The full C83 is false for binary columns: with the codes 0 and 1 the rare value is offered; with the codes 1 and 2 the column has integers, the
99th percentile is the frequent value, and the constructor raises. -/
theorem C83_binary_refuted : (∃ A : ActionSet ℚ, mkActionSet (List.replicate 101 [0] ++ [[1]]) ["a"] 1 [] defaultBounds (.str "relative") = .ok A ∧
      A.elems.map (·.grid.vals) = [[0, 1]]) ∧
    mkActionSet ((List.replicate 101 [(0 : ℚ)] ++ [[1]]).map (inUnits (fun _ => 1) (fun _ => 1))) ["a"] 1 [] defaultBounds (.str "relative") =
      .error .value :=
  ⟨by decide +kernel, errorOf_some (by decide +kernel)⟩

/-- Non-vacuity of `C83_new` and `C83_percentiles`: a real column in other units, a binary one that keeps its units, and years counted from another
year. -/
example : (∀ (j : ℕ) (n : String), ["a", "b", "c"][j]? = some n → ColumnInUnits [[1 / 2, 0, 1950], [5 / 2, 1, 2005]]
      (fun j => if j = 0 then 1 / 2 else 1) (fun j => if j = 0 then 1 else if j = 1 then 0 else -1900) [] [] (defaultBounds (K := ℚ)) j n) ∧
    (∀ u z, KdeConverts exExt u z) ∧
    ∃ A : ActionSet ℚ, mkActionSet [[1 / 2, 0, 1950], [5 / 2, 1, 2005]] ["a", "b", "c"] 1 [] defaultBounds (.str "relative") = .ok A := by
  refine ⟨?_, fun u z values => ⟨fun _ h => (by cases h), fun f hf => ⟨_, rfl, fun v => congrFun (Except.ok.inj hf) v⟩⟩, ?_⟩
  · have hint : ∀ (q : ℚ), q.den ≠ 1 → ∀ k : ℤ, (k : ℚ) ≠ q := by
      rintro q hq k rfl
      exact hq (by simp)
    intro j n hn
    match j with
    | 0 =>
      refine Or.inr (Or.inl ⟨⟨_, List.mem_cons_self .., 1 / 2, rfl, hint _ (by decide +kernel)⟩,
        ⟨_, List.mem_cons_self .., 1 / 2, rfl, ?_⟩, .percentile _ _⟩)
      exact hint _ (by decide +kernel)
    | 1 => exact Or.inl ⟨rfl, rfl, rfl⟩
    | 2 =>
      refine Or.inr (Or.inr ⟨rfl, ⟨-1900, by norm_num⟩, ?_, ⟨_, List.mem_cons_self .., 1950, rfl, by norm_num, by norm_num⟩,
        ⟨_, List.mem_cons_self .., 1950, rfl, by norm_num, by norm_num⟩, .percentile _ _⟩)
      intro r hr v hv
      simp only [List.mem_cons, List.not_mem_nil, or_false] at hr
      rcases hr with rfl | rfl
      · simp only [List.getElem?_cons_succ, List.getElem?_cons_zero, Option.some.injEq] at hv
        exact ⟨1950, by rw [← hv]; norm_num⟩
      · simp only [List.getElem?_cons_succ, List.getElem?_cons_zero, Option.some.injEq] at hv
        exact ⟨2005, by rw [← hv]; norm_num⟩
    | j + 3 => simp at hn
  · have h : ∃ A : ActionSet ℚ, mkActionSet [[1 / 2, 0, 1950], [5 / 2, 1, 2005]] ["a", "b", "c"] 1 [] defaultBounds (.str "relative") =
        .ok A ∧ A.yDesired = 1 := by decide +kernel
    obtain ⟨A, hA, -⟩ := h
    exact ⟨A, hA⟩

end Recourse
