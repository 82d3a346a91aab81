import Verif.Spec

/-!
# Solvers that work with tolerances

CPLEX and CBC satisfy constraints and bounds only up to a feasibility tolerance, and take a value close to 0 or
1 for an integer.  Both tolerances are parameters here: `ε` for constraints, bounds and the objective, `δ` for
integrality.
-/

namespace Recourse

variable {K : Type} [Field K] [LinearOrder K] [IsStrictOrderedRing K] [FloorRing K]

/-- A constraint holds up to `ε`. -/
def LinCon.SatUpTo (ε : K) (c : LinCon K) (σ : Var → K) : Prop :=
  match c.sense with
  | .le => evalLin σ c.terms ≤ c.rhs + ε
  | .ge => c.rhs - ε ≤ evalLin σ c.terms
  | .eq => |evalLin σ c.terms - c.rhs| ≤ ε
  | .range r => c.rhs - ε ≤ evalLin σ c.terms ∧ evalLin σ c.terms ≤ c.rhs + r + ε

/-- A variable is within its bounds up to `ε`, and within `δ` of 0 or 1 if it is binary. -/
def VarDecl.SatUpTo (ε δ : K) (d : VarDecl K) (σ : Var → K) : Prop :=
  d.lb - ε ≤ σ d.v ∧ (∀ u ∈ d.ub, σ d.v ≤ u + ε) ∧ (d.kind = .bin → |σ d.v| ≤ δ ∨ |σ d.v - 1| ≤ δ)

/-- `σ` is a feasible point of the program up to tolerances; SOS1 sets hold up to `δ`. -/
structure Mip.FeasibleUpTo (ε δ : K) (m : Mip K) (σ : Var → K) : Prop where
  decls : ∀ d ∈ m.decls, d.SatUpTo ε δ σ
  cons : ∀ c ∈ m.cons, c.SatUpTo ε σ
  sos : ∀ s ∈ m.sos, ∀ v ∈ s, ∀ v' ∈ s, δ < |σ v| → δ < |σ v'| → v = v'

/-- `σ` is optimal up to tolerances: no exactly feasible point is better by more than `ε`. -/
def Mip.OptimalUpTo (ε δ : K) (m : Mip K) (σ : Var → K) : Prop :=
  m.FeasibleUpTo ε δ σ ∧ ∀ τ, m.Feasible τ → m.objVal σ ≤ m.objVal τ + ε

/-- Assumption on a solver with tolerances: its claims are true up to them; a program that it calls infeasible has no
exactly feasible point. -/
def Oracle.SoundUpTo (ε δ : K) (o : Oracle K) : Prop :=
  ∀ k m, match o k m with
    | .optimal σ => m.OptimalUpTo ε δ σ
    | .feasible σ => m.FeasibleUpTo ε δ σ
    | .infeasible => ¬ ∃ σ, m.Feasible σ
    | .unknown => True

/-- The score `w · (x + a) + t` misses the closed desired side of 0 by at most `ε`. -/
def ReachesScoreUpTo (ε : K) (y : Int) (w : List K) (t : K) (x a : List K) : Prop :=
  if 0 < y then -ε ≤ dot w (vadd x a) + t else dot w (vadd x a) + t ≤ ε

/-- `a` and `a'` have the same length and differ by at most `r` in every feature. -/
def Near (r : K) (a a' : List K) : Prop := a.length = a'.length ∧ ∀ j : ℕ, |a.getD j 0 - a'.getD j 0| ≤ r

/-- `a` is close to recourse: its score misses the desired side by at most `ε`, and it is within `r` of an action `a'` that is
permitted, changes between `lo` and `hi` features and respects the subset limits where they apply. -/
structure NearRecourse (ε r : K) (A : ActionSet K) (w : List K) (t : K) (x a a' : List K) (lo hi : ℕ) : Prop where
  score : ReachesScoreUpTo ε A.yDesired w t x a
  near : Near r a a'
  permitted : PermittedAction A x a'
  min : lo ≤ numChanged a'
  max : numChanged a' ≤ hi
  limits : LimitsApply A x → RespectsLimits A x a'

/-- `N` is larger than the number of values on every grid, and at least the number of columns. -/
def GridSizes (N : ℕ) (A : ActionSet K) : Prop := A.names.length ≤ N ∧ ∀ e ∈ A.elems, e.grid.vals.length < N

/-- No permitted change at `x` is larger than `R`. -/
def ChangesWithin (R : K) (A : ActionSet K) (x : List K) : Prop := 0 ≤ R ∧
  ∀ (j : ℕ) (e : Elem K) (xj v : K), A.elems[j]? = some e → x[j]? = some xj → Permitted e xj v → |v - xj| ≤ R

/-- No permitted change at `x` costs more than `C`. -/
def CostsWithin (C : K) (ext : Ext K) (ct : CostType) (A : ActionSet K) (x : List K) : Prop := 0 ≤ C ∧
  ∀ (j : ℕ) (e : Elem K) (xj v c : K), A.elems[j]? = some e → x[j]? = some xj → Permitted e xj v →
    MoveCost ext ct e xj v c → c ≤ C

end Recourse
