import Verif.Model.Builder
import Verif.Num

/-!
# Model of the check of solutions (`_check_mip_solution`, recourse/builder.py:480-521)
-/

namespace Recourse

variable {K : Type} [Field K] [LinearOrder K] [IsStrictOrderedRing K] [FloorRing K]

/-- The warnings of `_check_mip_solution` (recourse/builder.py:496, 504, 515, 520). -/
inductive Warn
  | notActionable | sameOutcome | maxCost | issue
  deriving DecidableEq, Repr

/-- `action_idx`: the features that are changed (recourse/builder.py:486-488). -/
def changedIdx (a : List K) : List ℕ :=
  (List.range a.length).filter fun j => !isCloseTol (1 / 10 ^ 4) (1 / 10 ^ 8) (a.getD j 0) 0

/-- `static_idx` (recourse/builder.py:487). -/
def staticIdx (a : List K) : List ℕ :=
  (List.range a.length).filter fun j => isCloseTol (1 / 10 ^ 4) (1 / 10 ^ 8) (a.getD j 0) 0

/-- The comparison of the reported cost with the costs of the features (recourse/builder.py:512-518): a warning or a
failing assertion, which becomes a warning at 520. -/
def costWarn (ct : CostType) (cost : XV K) (cs : List K) : List Warn :=
  match ct, cost with
  | .max, .fin c => if isCloseTol (1 / 10 ^ 4) (1 / 10 ^ 8) c (npMax cs) then [] else [.maxCost]
  | .max, _ => [.maxCost]
  | .total, .fin c => if isClose c cs.sum then [] else [.issue]
  | .total, _ => [.issue]
  | .loc, _ => []

/-- `_check_mip_solution(info)` (recourse/builder.py:480-521): the warnings issued, or the exception.  It is called
nowhere in the package. -/
def Builder.checkSolution (b : Builder K) (i : Info K) : Except Err (List Warn) :=
  if i.feasible then
    match i.actions, i.costs, b.x with
    | some a, some cs, some x => do
        pyAssert (decide (1 ≤ (changedIdx a).length))                            -- 490
        pyAssert (decide (b.minItems ≤ (changedIdx a).length ∧ (changedIdx a).length ≤ b.maxItems))   -- 491
        let w1 := if (changedIdx a).all (fun j => decide (j ∈ b.actionableIdx)) then [] else [Warn.notActionable]
        let same := decide (b.prediction x = b.prediction (vadd x a))            -- 500
        pyAssert (!(same && isCloseTol (1 / 10 ^ 5) (1 / 10 ^ 4) (b.score (vadd x a)) 0))    -- 503
        let w2 := if same then [Warn.sameOutcome] else []                        -- 504
        let w3 := if (changedIdx a).all (fun j => decide (0 < cs.getD j 0))
                    && (staticIdx a).all (fun j => isClose (cs.getD j 0) 0)      -- 508-509
                  then costWarn b.costType i.cost cs else [Warn.issue]
        .ok (w1 ++ w2 ++ w3)
    | _, _, _ => .error .type
  else .ok []

end Recourse
