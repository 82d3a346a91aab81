import Verif.Num

/-!
# Mixed integer programs and solvers

The data handed to CPLEX / Python-MIP by `build_mip`, its meaning, and the solver as an external
parameter.  Variable names such as `'u[3][0]'` are represented by structured names.
-/

namespace Recourse

variable {K : Type} [Field K] [LinearOrder K] [IsStrictOrderedRing K]

/-- Names of MIP variables: `a[j]`, `u[j][k]`, `c[j]`, `max_cost`
(recourse/builder.py:396-399, 747, 1074-1077). -/
inductive Var
  | a (j : ℕ)
  | u (j k : ℕ)
  | c (j : ℕ)
  | maxCost
  deriving DecidableEq, Repr

/-- Variable types `'C'` and `'B'`. -/
inductive VKind
  | cont | bin
  deriving DecidableEq, Repr

/-- A declared variable; for continuous variables without explicit bounds both solvers use
`[0, +inf)`; `ub = none` is `+inf`.  Binary variables have range `{0, 1}` intersected with `[lb, ub]`. -/
structure VarDecl (K : Type) where
  v : Var
  kind : VKind
  lb : K
  ub : Option K
  deriving DecidableEq

/-- Constraint senses: `<=`, `>=`, `==`, and the CPLEX ranged constraint `'R'`
(`rhs <= expr <= rhs + range` for a nonnegative range value; recourse/builder.py:720-736). -/
inductive Sense (K : Type)
  | le | ge | eq
  | range (r : K)
  deriving DecidableEq

/-- Constraint names that the code refers to again (`'max_items'`, `'min_items'`,
recourse/builder.py:703, 894, 903, 1052-1053, 1185, 1194); all others are `other`. -/
inductive CName
  | maxItems | minItems | other
  deriving DecidableEq, Repr

/-- A linear constraint `sum coef * var  sense  rhs`. -/
structure LinCon (K : Type) where
  name : CName
  terms : List (Var × K)
  sense : Sense K
  rhs : K
  deriving DecidableEq

/-- A mixed integer (minimisation) program with SOS1 sets. -/
structure Mip (K : Type) where
  decls : List (VarDecl K)
  cons : List (LinCon K)
  sos : List (List Var)
  obj : List (Var × K)
  deriving DecidableEq

/-- Value of a linear expression. -/
def evalLin (σ : Var → K) (terms : List (Var × K)) : K := (terms.map fun t => t.2 * σ t.1).sum

/-- Meaning of a variable declaration. -/
def VarDecl.Sat (d : VarDecl K) (σ : Var → K) : Prop :=
  d.lb ≤ σ d.v ∧ (∀ u ∈ d.ub, σ d.v ≤ u) ∧ (d.kind = .bin → σ d.v = 0 ∨ σ d.v = 1)

/-- Meaning of a constraint. -/
def LinCon.Sat (c : LinCon K) (σ : Var → K) : Prop :=
  match c.sense with
  | .le => evalLin σ c.terms ≤ c.rhs
  | .ge => c.rhs ≤ evalLin σ c.terms
  | .eq => evalLin σ c.terms = c.rhs
  | .range r => c.rhs ≤ evalLin σ c.terms ∧ evalLin σ c.terms ≤ c.rhs + r

/-- Meaning of an SOS1 set: at most one variable is nonzero. -/
def SosSat (s : List Var) (σ : Var → K) : Prop :=
  ∀ v ∈ s, ∀ v' ∈ s, σ v ≠ 0 → σ v' ≠ 0 → v = v'

/-- `σ` is a feasible point of the program. -/
structure Mip.Feasible (m : Mip K) (σ : Var → K) : Prop where
  decls : ∀ d ∈ m.decls, d.Sat σ
  cons : ∀ c ∈ m.cons, c.Sat σ
  sos : ∀ s ∈ m.sos, SosSat s σ

/-- Objective value. -/
def Mip.objVal (m : Mip K) (σ : Var → K) : K := evalLin σ m.obj

/-- `σ` is an optimal point. -/
def Mip.Optimal (m : Mip K) (σ : Var → K) : Prop :=
  m.Feasible σ ∧ ∀ τ, m.Feasible τ → m.objVal σ ≤ m.objVal τ

/-- What a solver run can report: a proven optimum, an incumbent of a run stopped by a limit,
proven infeasibility, or nothing (stopped by a limit without incumbent). -/
inductive Outcome (K : Type)
  | optimal (σ : Var → K)
  | feasible (σ : Var → K)
  | infeasible
  | unknown

/-- A solver: its answer may depend on the number of solver calls made before (the `ℕ` argument), so
nondeterminism and limits that strike at arbitrary times are covered. -/
abbrev Oracle (K : Type) := ℕ → Mip K → Outcome K

/-- Assumption on the solver, limits allowed: its claims are true. -/
def Oracle.Sound (o : Oracle K) : Prop :=
  ∀ k m, match o k m with
    | .optimal σ => m.Optimal σ
    | .feasible σ => m.Feasible σ
    | .infeasible => ¬ ∃ σ, m.Feasible σ
    | .unknown => True

/-- Assumption on a solver run to completion: on programs that are infeasible or attain their
minimum it proves so. -/
def Oracle.Complete (o : Oracle K) : Prop :=
  ∀ k m, ((∃ σ, m.Optimal σ) → ∃ σ, o k m = .optimal σ) ∧ ((¬ ∃ σ, m.Feasible σ) → o k m = .infeasible)

/-- A sound and complete solver. -/
def Oracle.Exact (o : Oracle K) : Prop := o.Sound ∧ o.Complete

end Recourse
