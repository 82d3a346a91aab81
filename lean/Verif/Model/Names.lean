import Verif.Model.Builder

/-!
# Names of variables and constraints as strings

The solvers identify variables and constraints by strings.  The programs of `Model/Builder.lean` use structured names;
here are the strings.
-/

namespace Recourse

variable {K : Type} [Field K] [LinearOrder K] [IsStrictOrderedRing K]

/-- `'%d' % k` for a natural number. -/
def fmtD (k : ℕ) : String := k.repr

/-- The string of a variable: `'a[%d]'`, `'u[%d][%d]'`, `'c[%d]'` (recourse/builder.py:396-399), `'max_cost'` (747,
1074, 1077). -/
def Var.text : Var → String
  | .a j => "a[" ++ fmtD j ++ "]"
  | .u j k => "u[" ++ fmtD j ++ "][" ++ fmtD k ++ "]"
  | .c j => "c[" ++ fmtD j ++ "]"
  | .maxCost => "max_cost"

/-- Names of the constraints of one feature: `set_a`, `pick_a` (recourse/builder.py:682, 1029, 1032; note the quotes
in the latter). -/
def pickNames (be : Backend) (f : Feat K) : List String :=
  match be with
  | .cpx => ["set_a[" ++ fmtD f.idx ++ "]", "pick_a[" ++ fmtD f.idx ++ "]"]
  | .pymip => ["set_a[" ++ fmtD f.idx ++ "]", "pick_a['" ++ fmtD f.idx ++ "']"]

/-- Names of the constraints of a subset limit: its id for CPLEX (recourse/builder.py:732), its position for
Python-MIP (1061-1062). -/
def limitNames (be : Backend) (i : ℕ) (c : SubsetLimit) : List String :=
  match be with
  | .cpx => ["subset_limit_" ++ c.id]
  | .pymip => ["constr_" ++ fmtD i ++ "_lb", "constr_" ++ fmtD i ++ "_ub"]

/-- Names of the cost constraints (recourse/builder.py:766-767, 1086-1088). -/
def costNames (f : Feat K) : List String := ["def_cost[" ++ fmtD f.idx ++ "]", "set_max_cost[" ++ fmtD f.idx ++ "]"]

/-- All names of constraints, in the order in which `build_mip` adds them (recourse/builder.py:669, 682, 703, 732,
763-775; 1012-1014, 1029-1032, 1052-1053, 1061-1062, 1086-1088). -/
def conNames (be : Backend) (p : BuildArgs K) : List String :=
  (match be with | .cpx => "score" | .pymip => "flip_prediction") :: p.feats.flatMap (pickNames be)
    ++ ["max_items", "min_items"] ++ (p.limits.zipIdx.flatMap fun c => limitNames be c.2 c.1)
    ++ (if p.costType = .max then p.feats.flatMap costNames else [])

/-- The SOS sets with their weights, as added by `build_mip` (recourse/builder.py:689, 1035-1038). -/
def sosPairs (p : BuildArgs K) : List (List (Var × K)) := p.feats.map fun f => f.inds.zip f.actions

end Recourse
