import Verif.Model.Auditor

/-!
# Model of `print_recourse_audit_report` (recourse/print_recourse_audit_report.py)
-/

namespace Recourse

variable {K : Type} [Field K] [LinearOrder K] [IsStrictOrderedRing K] [FloorRing K]

/-- `.replace([np.inf, -np.inf], np.nan)` (recourse/print_recourse_audit_report.py:10). -/
def XV.infToNan : XV K → XV K
  | .inf => .nan
  | v => v

/-- `isnull()`. -/
def XV.isNan : XV K → Bool
  | .nan => true
  | _ => false

/-- `np.isfinite`. -/
def XV.isFin : XV K → Bool
  | .fin _ => true
  | _ => false

/-- A row of `processed_data`: audit entry and true label (7-12).  The columns of `X` are not kept, nothing
that is printed before the call ends depends on them. -/
structure ReportRow (K : Type) where
  feasible : Option Bool
  cost : XV K
  y : K
  deriving DecidableEq

/-- `left.merge(right, left_index = True, right_index = True)`: the inner join on the index labels
(recourse/print_recourse_audit_report.py:8-9): each row of `left` with each row of `right` that has the same
label.  Simplification: the order of the rows is that of `left`; nothing printed depends on the order. -/
def joinIdx {ι α β : Type} [DecidableEq ι] (l : List (ι × α)) (r : List (ι × β)) : List (ι × (α × β)) :=
  l.flatMap fun a => (r.filter fun b => decide (b.1 = a.1)).map fun b => (a.1, (a.2, b.2))

/-- `processed_data` (recourse/print_recourse_audit_report.py:7-12): the audit table joined with `X` and with
the labels `y`, all three given with their index. -/
def processed {ι : Type} [DecidableEq ι] (table : List (ι × AuditRow K)) (X : List (ι × List K))
    (y : List (ι × K)) : List (ReportRow K) :=
  (joinIdx (joinIdx table X) y).map fun e => ⟨e.2.1.1.feasible, e.2.1.1.cost.infToNan, e.2.2⟩

/-- The finite values among the costs. -/
def XV.toFin : XV K → Option K
  | .fin c => some c
  | _ => none

/-- `mean` of pandas. -/
def meanOf (l : List K) : K := l.sum / (l.length : K)

/-- `median` of pandas: the middle of the sorted values, or the mean of the two middle ones. -/
def medianOf (l : List K) : K :=
  let s := l.insertionSort (· ≤ ·)
  if s.length % 2 = 1 then s.getD (s.length / 2) 0
  else (s.getD (s.length / 2 - 1) 0 + s.getD (s.length / 2) 0) / 2

/-- What is printed for one group (recourse/print_recourse_audit_report.py:42-65): the numbers of people who
already have the outcome, without recourse, and with recourse, and the mean, the median and the count of the
costs (`none`: an empty table is printed). -/
structure GroupCounts (K : Type) where
  already : ℕ
  noRecourse : ℕ
  recourse : ℕ
  stats : Option (K × K × ℕ)
  deriving DecidableEq

/-- The costs of the people with recourse in the group `y` (`df3`, 58-62; NaN is left out by `agg`). -/
def groupCosts (data : List (ReportRow K)) (y : K) : List K :=
  (data.filter fun r => decide (r.y = y) && decide (r.feasible = some true)).filterMap (·.cost.toFin)

/-- The printing part of `subset_data_and_plot` (recourse/print_recourse_audit_report.py:42-65). -/
def groupCounts (data : List (ReportRow K)) (y : K) : GroupCounts K :=
  { already := (data.filter fun r => decide (r.y = y) && r.feasible.isNone && r.cost.isNan).length
    noRecourse :=
      (data.filter fun r => decide (r.y = y) && decide (r.feasible = some false) && r.cost.isFin).length
    recourse := (data.filter fun r => decide (r.y = y) && decide (r.feasible = some true)).length
    stats :=
      let c := groupCosts data y
      if c.isEmpty then none else some (meanOf c, medianOf c, c.length) }

/-- `print_recourse_audit_report(X, audit_df, y)` with the default grouping
(recourse/print_recourse_audit_report.py:5-34): the size printed first, what is printed for the labels `ys`
(the elements of `set(y)` in the order of the runtime), and how the call ends.  `cols` are the names of the
columns of `X`: when one of them is `feasible`, `cost` or `y`, the joins rename both columns and the first
look-up raises `KeyError` (45-47).  Otherwise the first `plt.show()` raises `NameError` because `plt` is not
imported (88; recourse/helper_functions.py:80-152 is a second copy of this function, with the same missing
import).  Simplification: no column of `X` is called `feasible_x`, `cost_x` or the like. -/
def report {ι : Type} [DecidableEq ι] (table : List (ι × AuditRow K)) (cols : List String)
    (X : List (ι × List K)) (y : List (ι × K)) (ys : List K) :
    ℕ × List (K × GroupCounts K) × Except Err Unit :=
  let data := processed table X y
  match ys with
  | [] => (data.length, [], .ok ())
  | l :: _ =>
      if "feasible" ∈ cols ∨ "cost" ∈ cols ∨ "y" ∈ cols then (data.length, [], .error .key)
      else (data.length, [(l, groupCounts data l)], .error .name)

end Recourse
