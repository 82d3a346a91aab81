import Verif.Model.Auditor
import Verif.Model.Classifier

/-!
# Model of the constructors of `RecourseBuilder` and `RecourseAuditor`, with all keyword arguments

The action set is a shared mutable object: a constructor returns the action set as it is afterwards (also
when it raises) together with the result.
-/

namespace Recourse

variable {K : Type} [Field K] [LinearOrder K] [IsStrictOrderedRing K] [FloorRing K]

/-- Which solver packages can be imported (recourse/defaults.py:5-27). -/
structure Installed where
  cplex : Bool
  pymip : Bool
  deriving DecidableEq

/-- Names of the solvers (recourse/defaults.py:30-31, recourse/builder.py:1232-1235). -/
def Backend.solverName : Backend → String
  | .cpx => "cplex"
  | .pymip => "python-mip"

/-- `SUPPORTED_SOLVERS` with the class chosen for each (recourse/defaults.py:47-55,
recourse/builder.py:1232-1235). -/
def Installed.supported (s : Installed) : List (String × Backend) :=
  (if s.cplex then [("cplex", .cpx)] else []) ++ (if s.pymip then [("python-mip", .pymip)] else [])

/-- `DEFAULT_SOLVER` (recourse/defaults.py:34-44).  With no solver the package cannot be imported; the model
then uses a name that is not supported. -/
def Installed.default (s : Installed) : String :=
  if s.cplex then "cplex" else if s.pymip then "python-mip" else ""

/-- `RecourseBuilder.__new__` (recourse/builder.py:37-43). -/
def Installed.pick (s : Installed) (solver : Option String) : Except Err Backend :=
  match s.supported.lookup (solver.getD s.default) with
  | some be => .ok be
  | none => .error .value

/-- The default of `mip_cost_type` (recourse/builder.py:32, 78, recourse/defaults.py:61) and the three valid
names (recourse/defaults.py:60); `none` is any other string. -/
def costTypeOf : Option String → Option CostType
  | none => some .max
  | some s => if s = "total" then some .total else if s = "local" then some .loc
      else if s = "max" then some .max else none

/-! ## Unknown cost types

A `mip_cost_type` that is none of the three names is stored without a check (recourse/builder.py:78). -/

/-- Subset limits in the form of the back end (recourse/builder.py:730-736, 1056-1062). -/
def limitConsOf (be : Backend) (feats : List (Feat K)) : SubsetLimit → Except Err (List (LinCon K)) :=
  match be with
  | .cpx => limitConsCpx feats
  | .pymip => limitConsPy feats

/-- `set_a`/`pick_a` in the form of the back end (recourse/builder.py:682-686, 1028-1032). -/
def pickConsOf (be : Backend) (f : Feat K) : List (LinCon K) :=
  match be with
  | .cpx => pickConsCpx f
  | .pymip => pickConsPy f

/-- `build_mip` for an unknown cost type: neither branch of 740/745 (1065/1073) is taken, so there is no
objective and no cost variable (recourse/builder.py:636-806, 971-1091). -/
def buildUnpriced (be : Backend) (p : BuildArgs K) : Except Err (Mip K) := do
  let lims ← p.limits.mapM (limitConsOf be p.feats)
  .ok { decls := p.feats.map declA ++ p.feats.flatMap declU
        cons := scoreCon p.yDesired p.score p.feats :: p.feats.flatMap (pickConsOf be)
          ++ sizeCons p.feats (max p.minItems 1) p.maxItems ++ lims.flatten
        sos := p.feats.map Feat.inds
        obj := [] }

/-- Assigning `x` for an unknown cost type (recourse/builder.py:176-182), as `Builder.setX`. -/
def Builder.setXUnpriced (ext : Ext K) (b : Builder K) (x : List K) : Builder K × Except Err Unit :=
  if x.length ≠ b.coefs.length then (b, .error .assertion)
  else
    let b := { b with x := some x }
    match b.buildInfo ext x with
    | .error er => ({ b with aset := b.aset.visit ext (b.aset.visitOrder ext) }, .error er)
    | .ok feats =>
      let b := { b with aset := b.aset.touch ext true }
      match buildUnpriced b.backend (b.buildArgs x feats) with
      | .error er => (b, .error er)
      | .ok m => ({ b with mip := some m, feats := feats, sol := .unknown }, .ok ())

/-- `fit()` for an unknown cost type (recourse/builder.py:524-548): when there is a solution, `solution_info`
asks for the values of the cost variables `c[j]`, which do not exist (842-843: the solver's error; 1130-1131:
`AttributeError`; both are `attribute` here). -/
def Builder.fitUnpriced (o : Oracle K) (b : Builder K) : Except Err (Builder K × Info K) :=
  match b.mip with
  | none => .error .assertion
  | some _ =>
    match (b.solve o).reported with
    | none => .ok (b.solve o, emptyInfo)
    | some _ => .error .attribute


/-! ## Constructors -/

/-- A builder together with whether its cost type is one of the three valid names.  For any other name the
field `costType` holds `total`, whose costs of single changes the code uses (recourse/builder.py:346-351). -/
structure AnyBuilder (K : Type) where
  b : Builder K
  valid : Bool

/-- Assigning `x` (recourse/builder.py:176-182) for any cost type. -/
def AnyBuilder.setX (ext : Ext K) (a : AnyBuilder K) (x : List K) : AnyBuilder K × Except Err Unit :=
  if a.valid then ({ a with b := (a.b.setX ext x).1 }, (a.b.setX ext x).2)
  else ({ a with b := (a.b.setXUnpriced ext x).1 }, (a.b.setXUnpriced ext x).2)

/-- `fit()` (recourse/builder.py:524-548) for any cost type. -/
def AnyBuilder.fit (o : Oracle K) (a : AnyBuilder K) : Except Err (AnyBuilder K × Info K) := do
  let r ← if a.valid then a.b.fit o else a.b.fitUnpriced o
  .ok ({ a with b := r.1 }, r.2)

/-- `RecourseBuilder(action_set = A, x = x, solver = solver, mip_cost_type = ct, **classifier)`
(recourse/builder.py:37-89).  `kw` are the classifier arguments; the length check is at
61, alignment at 62-63, the cost type is stored at 78, the point is assigned at 85-86, before `_check_rep` (89),
which then holds. -/
def construct (ext : Ext K) (s : Installed) (solver ct : Option String) (kw : ClfKwargs K)
    (A : ActionSet K) (x : Option (List K)) : ActionSet K × Except Err (AnyBuilder K) :=
  match s.pick solver with
  | .error er => (A, .error er)
  | .ok be =>
    match parseClassifierArgs [] kw with
    | .error er => (A, .error er)                                        -- 57
    | .ok (w, t) =>
      match mkBuilder be ((costTypeOf ct).getD .total) A w t with
      | .error er => (A, .error er)                                      -- 61
      | .ok b =>
        let a : AnyBuilder K := ⟨b, (costTypeOf ct).isSome⟩
        match x with
        | none => (a.b.aset, .ok a)
        | some x =>
          match a.setX ext x with                                        -- 86
          | (a, .ok ()) => (a.b.aset, .ok a)
          | (a, .error er) => (a.b.aset, .error er)

/-- `RecourseAuditor(action_set = A, solver = solver, **classifier)` (recourse/auditor.py:22-50): the action
set is aligned (39) before the solver is looked up (45-48). -/
def constructAuditor (s : Installed) (solver : Option String) (kw : ClfKwargs K) (A : ActionSet K) :
    ActionSet K × Except Err (Auditor K) :=
  match parseClassifierArgs [] kw with
  | .error er => (A, .error er)                                          -- 36
  | .ok (w, t) =>
    match A.setAlignment w with
    | .error er => (A, .error er)                                        -- 39
    | .ok A =>
      match s.pick solver with
      | .error er => (A, .error er)                                      -- 45-48
      | .ok be =>
        match mkBuilder be .max A w t with
        | .error er => (A, .error er)
        | .ok b => (A, .ok ⟨w, t, b⟩)

end Recourse
