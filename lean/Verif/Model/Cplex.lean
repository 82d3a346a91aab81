import Verif.Model.Settings

/-!
# Model of `cplex_helper.py`

The CPLEX library is a parameter (`CpxLib`): which values a parameter takes, the defaults, the largest limits.  A `Cplex` object is its
parameter values, its variables and whether its output streams are cut.
-/

namespace Recourse

variable {K : Type} [Field K] [LinearOrder K] [IsStrictOrderedRing K] [FloorRing K]

/-- What the library decides: which values `set` accepts, the default values, `timelimit.max()` and `mip.limits.nodes.max()`. -/
structure CpxLib (K : Type) where
  accepts : String → PyVal K → Bool
  dflt : String → PyVal K
  maxTime : K
  maxNodes : K

/-- A variable of a program: name, objective coefficient, bounds, type. -/
structure CpxVar (K : Type) where
  name : String
  obj : K
  lb : K
  ub : K
  vtype : String
  deriving DecidableEq

/-- A `Cplex` object. -/
structure Cpx (K : Type) where
  param : String → PyVal K
  vars : List (CpxVar K)
  muted : Bool

/-- `Cplex()`: every parameter has its default, no variables. -/
def newCpx (lib : CpxLib K) : Cpx K := { param := lib.dflt, vars := [], muted := false }

/-- A call that changes a `Cplex` object in place and may raise: what was changed before stays. -/
abbrev CpxStep (K : Type) := Cpx K → Cpx K × Except Err Unit

/-- Calls one after the other, up to the first exception. -/
def CpxStep.all : List (CpxStep K) → CpxStep K
  | [], c => (c, .ok ())
  | f :: fs, c => match f c with
    | (c', .ok ()) => CpxStep.all fs c'
    | (c', .error er) => (c', .error er)

/-- `p.<name>.set(v)`: refused values raise `CplexError`. -/
def cpxPut (lib : CpxLib K) (name : String) (v : PyVal K) : CpxStep K := fun c =>
  if lib.accepts name v then ({ c with param := Function.update c.param name v }, .ok ()) else (c, .error .cplex)

/-- `p.<name>.set(param[key])`. -/
def cpxPutKey (lib : CpxLib K) (param : List (String × PyVal K)) (name key : String) : CpxStep K := fun c =>
  match param.lookup key with
  | some v => cpxPut lib name v c
  | none => (c, .error .key)

/-- Cutting the output streams (recourse/cplex_helper.py:276-280). -/
def cpxMute (b : Bool) : CpxStep K := fun c => (if b then { c with muted := true } else c, .ok ())

/-- `set_cpx_display_options` (recourse/cplex_helper.py:263-282). -/
def setCpxDisplay (lib : CpxLib K) (mip parameters lp : Bool) : CpxStep K :=
  CpxStep.all [cpxPut lib "mip.display" (.bool mip), cpxPut lib "simplex.display" (.bool lp),
    cpxPut lib "paramdisplay" (.bool parameters), cpxMute (!(mip || lp))]

/-- `set_cpx_time_limit` (recourse/cplex_helper.py:404-421); a negative limit fails the assertion in 419. -/
def setCpxTime (lib : CpxLib K) : LimitReq K → CpxStep K
  | .num x => fun c => if 0 ≤ min x lib.maxTime then cpxPut lib "timelimit" (.flt (min x lib.maxTime)) c else (c, .error .assertion)
  | .other => fun c => (c, .error .type)
  | _ => cpxPut lib "timelimit" (.flt lib.maxTime)

/-- `set_cpx_node_limit` (recourse/cplex_helper.py:424-443). -/
def setCpxNodes (lib : CpxLib K) : LimitReq K → CpxStep K
  | .num x => fun c =>
      if 0 ≤ min (trunc x) lib.maxNodes then cpxPut lib "mip.limits.nodes" (.flt (min (trunc x) lib.maxNodes)) c
      else (c, .error .assertion)
  | .other => fun c => (c, .error .type)
  | _ => cpxPut lib "mip.limits.nodes" (.flt lib.maxNodes)

/-- The number behind a parameter compared with a number (`param['time_limit'] < ...`). -/
def cpxNum : PyVal K → Option K
  | .flt x => some x
  | .int i => some (i : K)
  | .bool b => some (if b then 1 else 0)
  | _ => none

/-- `if param[key] < default: set_limit(param[key])` (recourse/cplex_helper.py:334-338): a limit that is not smaller than the default
leaves the limit as it is. -/
def cpxLimit (param : List (String × PyVal K)) (key : String) (dflt : K) (set : LimitReq K → CpxStep K) : CpxStep K := fun c =>
  match param.lookup key with
  | none => (c, .error .key)
  | some v => match cpxNum v with
    | none => (c, .error .type)
    | some x => if x < dflt then set (.num x) c else (c, .ok ())

/-- `if param['display_cplex_progress'] is (None or False)` (recourse/cplex_helper.py:299-300): `None or False` is `False`, so `None` does
not turn the display off. -/
def cpxQuiet (lib : CpxLib K) (param : List (String × PyVal K)) : CpxStep K := fun c =>
  match param.lookup "display_cplex_progress" with
  | none => (c, .error .key)
  | some (.bool false) => setCpxDisplay lib false false false c
  | some _ => (c, .ok ())

/-- `set_cpx_parameters(cpx, param)` (recourse/cplex_helper.py:285-340), calls in the order of the code; `1e75` and `9223372036800000000`
are the default limits (137, 140). -/
def setCpxParameters (lib : CpxLib K) (param : List (String × PyVal K)) : CpxStep K :=
  CpxStep.all [
    cpxQuiet lib param,
    cpxPutKey lib param "randomseed" "randomseed",
    cpxPutKey lib param "threads" "n_cores",
    cpxPut lib "output.clonelog" (.int 0),
    cpxPut lib "parallel" (.int 1),
    cpxPutKey lib param "emphasis.mip" "mipemphasis",
    cpxPutKey lib param "preprocessing.boundstrength" "bound_strengthening",
    cpxPutKey lib param "mip.cuts.implied" "implied_bound_cuts",
    cpxPutKey lib param "mip.cuts.localimplied" "locally_implied_bound_cuts",
    cpxPutKey lib param "mip.cuts.zerohalfcut" "zero_half_cuts",
    cpxPutKey lib param "mip.cuts.mircut" "mir_cuts",
    cpxPutKey lib param "mip.cuts.covers" "cover_cuts",
    cpxPutKey lib param "emphasis.numerical" "numerical_emphasis",
    cpxPutKey lib param "mip.tolerances.integrality" "integrality_tolerance",
    cpxPutKey lib param "mip.limits.repairtries" "repairtries",
    cpxPutKey lib param "mip.pool.capacity" "poolsize",
    cpxPutKey lib param "mip.pool.replace" "poolreplace",
    cpxPutKey lib param "mip.tolerances.mipgap" "mipgap",
    cpxPutKey lib param "mip.tolerances.absmipgap" "absmipgap",
    cpxLimit param "time_limit" (10 ^ 75) (setCpxTime lib),
    cpxLimit param "node_limit" 9223372036800000000 (setCpxNodes lib)]

/-- `DEFAULT_CPLEX_PARAMETERS` (recourse/cplex_helper.py:124-260); `nan` (239) stands as `None`, it is not read. -/
def defaultCpxParameters : List (String × PyVal K) :=
  [("display_cplex_progress", .bool false), ("n_cores", .int 1), ("randomseed", .int 0), ("time_limit", .flt (10 ^ 75)),
    ("node_limit", .int 9223372036800000000), ("mipgap", .flt (1 / 2 ^ 52)), ("absmipgap", .flt (1 / 2 ^ 52)),
    ("objdifference", .flt 0), ("integrality_tolerance", .flt 0), ("mipemphasis", .int 0), ("bound_strengthening", .int (-1)),
    ("cover_cuts", .int (-1)), ("zero_half_cuts", .int (-1)), ("mir_cuts", .int (-1)), ("implied_bound_cuts", .int 0),
    ("locally_implied_bound_cuts", .int 3), ("scale_parameters", .int 0), ("numerical_emphasis", .int 0), ("poolsize", .int 100),
    ("poolrelgap", .none), ("poolreplace", .int 2), ("repairtries", .int 20), ("nodefilesize", .flt 122880)]

/-- What `fit` and `populate` set before solving on CPLEX (recourse/builder.py:538-540, 585-587, 627-629); the limits are those the setters
pass on (`None` becomes infinity, recourse/builder.py:237-256). -/
def fitCpx (lib : CpxLib K) (flag : Bool) (time nodes : LimitReq K) : CpxStep K :=
  CpxStep.all [setCpxDisplay lib flag flag flag, setCpxTime lib time, setCpxNodes lib nodes]

/-- `set_mip_cutoff_values` (recourse/cplex_helper.py:387-401). -/
def setCpxCutoff (lib : CpxLib K) (objval incr : K) : CpxStep K := fun c =>
  if 0 ≤ objval ∧ 0 ≤ incr then
    CpxStep.all [cpxPut lib "mip.tolerances.uppercutoff" (.flt objval),
      cpxPut lib "mip.tolerances.objdifference" (.flt (95 / 100 * incr)),
      cpxPut lib "mip.tolerances.absmipgap" (.flt (95 / 100 * incr))] c
  else (c, .error .assertion)

/-- `p.<name>.reset()`. -/
def cpxReset (lib : CpxLib K) (name : String) : CpxStep K := fun c =>
  ({ c with param := Function.update c.param name (lib.dflt name) }, .ok ())

/-- The parameters of `toggle_cpx_preprocessing`. -/
def preprocessingNames : List String :=
  ["preprocessing.aggregator", "preprocessing.reduce", "preprocessing.presolve", "preprocessing.coeffreduce",
    "preprocessing.boundstrength"]

/-- `toggle_cpx_preprocessing` (recourse/cplex_helper.py:446-501). -/
def toggleCpxPreprocessing (lib : CpxLib K) (toggle : Bool) : CpxStep K :=
  if toggle then CpxStep.all (preprocessingNames.map (cpxReset lib))
  else CpxStep.all (preprocessingNames.map fun n => cpxPut lib n (.int 0))

/-- The attribute paths below `cpx.parameters` that are parameters, as far as `cplex_helper.py` uses them. -/
def cpxNames : List String :=
  ["mip.display", "simplex.display", "paramdisplay", "randomseed", "threads", "output.clonelog", "parallel", "emphasis.mip",
    "preprocessing.boundstrength", "mip.cuts.implied", "mip.cuts.localimplied", "mip.cuts.zerohalfcut", "mip.cuts.mircut",
    "mip.cuts.covers", "emphasis.numerical", "mip.tolerances.integrality", "mip.limits.repairtries", "mip.pool.capacity",
    "mip.pool.replace", "mip.tolerances.mipgap", "mip.tolerances.absmipgap", "timelimit", "mip.limits.nodes",
    "mip.tolerances.uppercutoff", "mip.tolerances.objdifference", "preprocessing.aggregator", "preprocessing.reduce",
    "preprocessing.presolve", "preprocessing.coeffreduce", "read.scale"]

/-- `p.<path>.get()`: an `AttributeError` if the path is no parameter. -/
def cpxGet (c : Cpx K) (path : String) : Except Err (PyVal K) :=
  if path ∈ cpxNames then .ok (c.param path) else .error .attribute

/-- `get_cpx_parameters` (recourse/cplex_helper.py:343-384), the entries in the order of the code (the comparison of the first with 0 is
left out). -/
def getCpxParameters (c : Cpx K) : Except Err (List (String × PyVal K)) :=
  [("display_cplex_progress", "mip.display"), ("randomseed", "randomseed"), ("n_cores", "threads.set"), ("mipemphasis", "emphasis.mip"),
    ("scale_parameters", "read.scale"), ("locally_implied_bound_cuts", "mip.cuts.localimplied"), ("time_limit", "mip.timelimit"),
    ("node_limit", "mip.limits.nodes"), ("mipgap", "mip.tolerances.mipgap"), ("absmipgap", "mip.tolerances.absmipgap"),
    ("integrality_tolerance", "mip.tolerances.integrality"), ("numerical_emphasis", "parameters.emphasis.numerical"),
    ("repairtries", "mip.limits.repairtries"), ("poolsize", "mip.pool.capacity"), ("poolreplace", "mip.pool.replace")].mapM
    fun (p : String × String) => do .ok (p.1, ← cpxGet c p.2)

/-- `copy_cplex` (recourse/cplex_helper.py:8-19): `Cplex(cpx)` copies the program, not the parameters; those among `names` whose value is
not the default (`get_changed`) are then set on the copy. -/
def copyCpx (lib : CpxLib K) (same : PyVal K → PyVal K → Bool) (names : List String) (c : Cpx K) : Cpx K × Except Err Unit :=
  CpxStep.all ((names.filter fun n => !same (c.param n) (lib.dflt n)).map fun n => cpxPut lib n (c.param n))
    { newCpx lib with vars := c.vars }

/-! ## Adding variables -/

/-- `float(v)`.  Simplification: strings are refused (`ValueError`). -/
def cpxFloat : PyVal K → Except Err K
  | .flt x => .ok x
  | .int i => .ok (i : K)
  | .bool b => .ok (if b then 1 else 0)
  | .arr [.flt x] => .ok x
  | .arr [.int i] => .ok (i : K)
  | .arr [.bool b] => .ok (if b then 1 else 0)
  | .str _ => .error .value
  | _ => .error .type

/-- `[float(v[0])] if isinstance(v, list) else [float(v)]` (recourse/cplex_helper.py:48-50). -/
def cpxOne : PyVal K → Except Err (List (PyVal K))
  | .list [] => .error .index
  | .list (v :: _) => do .ok [.flt (← cpxFloat v)]
  | v => do .ok [.flt (← cpxFloat v)]

/-- Conversion of `obj` and `ub` for several variables (recourse/cplex_helper.py:66-88): a list of length one raises, because
`float` is applied to the list. -/
def cpxMany (n : ℕ) : PyVal K → Except Err (List (PyVal K))
  | .arr l => .ok l
  | .list l =>
      if l.length = n then do .ok ((← l.mapM cpxFloat).map .flt)
      else if l.length = 1 then .error .type
      else .error .value
  | v => do .ok (List.replicate n (.flt (← cpxFloat v)))

/-- Conversion of `lb` (recourse/cplex_helper.py:90-100): the length of `ub` is tested in 95. -/
def cpxManyLb (n ubLen : ℕ) : PyVal K → Except Err (List (PyVal K))
  | .arr l => .ok l
  | .list l =>
      if l.length = n then do .ok ((← l.mapM cpxFloat).map .flt)
      else if ubLen = 1 then .error .type
      else .error .value
  | v => do .ok (List.replicate n (.flt (← cpxFloat v)))

/-- Conversion of `vtype` for several variables (recourse/cplex_helper.py:56-64); other values fail the assertion in 107. -/
def cpxTypes (n : ℕ) : PyVal K → Except Err (List (PyVal K))
  | .arr l => .ok l
  | .list l => .ok l
  | .str s =>
      if s.length = 1 then .ok (List.replicate n (.str s))
      else if s.length = n then .ok (s.toList.map fun ch => .str (String.singleton ch))
      else .error .value
  | _ => .error .assertion

/-- `assert isinstance(l[i], float)`. -/
def cpxFltAt (l : List (PyVal K)) (i : ℕ) : Except Err K :=
  match l[i]? with
  | some (.flt x) => .ok x
  | some _ => .error .assertion
  | none => .error .index

/-- `assert isinstance(l[i], str)`. -/
def cpxStrAt (l : List (PyVal K)) (i : ℕ) : Except Err String :=
  match l[i]? with
  | some (.str s) => .ok s
  | some _ => .error .assertion
  | none => .error .index

/-- The names (recourse/cplex_helper.py:37-40).  Simplification: only strings, lists and arrays. -/
def cpxNameList : PyVal K → Except Err (List (PyVal K))
  | .str s => .ok [.str s]
  | .list l => .ok l
  | .arr l => .ok l
  | _ => .error .assertion

/-- `vtype if isinstance(vtype, list) else [vtype]` (recourse/cplex_helper.py:51). -/
def cpxTypeOne : PyVal K → List (PyVal K)
  | .list l => l
  | v => [v]

/-- The objective coefficients or the upper bounds (recourse/cplex_helper.py:48-49, 66-88). -/
def cpxArg (n : ℕ) (v : PyVal K) : Except Err (List (PyVal K)) := if n = 1 then cpxOne v else cpxMany n v

/-- The lower bounds (recourse/cplex_helper.py:50, 90-100). -/
def cpxArgLb (n ubLen : ℕ) (v : PyVal K) : Except Err (List (PyVal K)) := if n = 1 then cpxOne v else cpxManyLb n ubLen v

/-- The types (recourse/cplex_helper.py:51, 56-64). -/
def cpxArgType (n : ℕ) (v : PyVal K) : Except Err (List (PyVal K)) := if n = 1 then .ok (cpxTypeOne v) else cpxTypes n v

/-- `add_variable_cpx` (recourse/cplex_helper.py:23-122).  `variables.add` refuses lists of different lengths (`CplexError`); if all types
are `'B'` the bounds are not passed on (118-119) and CPLEX uses 0 and 1. -/
def addVariableCpx (c : Cpx K) (name obj ub lb vtype : PyVal K) : Except Err (Cpx K) := do
  let ns ← cpxNameList name                                             -- 37-40
  let n := ns.length                                                    -- 42
  let objs ← cpxArg n obj
  let ubs ← cpxArg n ub
  let lbs ← cpxArgLb n ubs.length lb
  let ts ← cpxArgType n vtype
  let vs ← (List.range n).mapM fun i => do                              -- 110-115
    let nm ← cpxStrAt ns i
    let o ← cpxFltAt objs i
    let u ← cpxFltAt ubs i
    let l ← cpxFltAt lbs i
    let t ← cpxStrAt ts i
    .ok ({ name := nm, obj := o, lb := l, ub := u, vtype := t } : CpxVar K)
  if n = 0 then .error .index                                           -- 117: vtype[0]
  else if objs.length = n ∧ ts.length = n ∧ (vs.all (·.vtype == "B") ∨ (ubs.length = n ∧ lbs.length = n)) then
    if vs.all (·.vtype == "B") then                                     -- 117-120
      .ok { c with vars := c.vars ++ vs.map fun v => { v with lb := 0, ub := 1 } }
    else .ok { c with vars := c.vars ++ vs }
  else .error .cplex

/-! ## Statistics and starting points -/

/-- What the library answers about the last solve: one outcome per query (`sol.get_status_string()`, ...). -/
abbrev CpxSol (K : Type) := String → Except Err (PyVal K)

/-- `dict.update` with a list of entries. -/
def dictUpdate (d new : List (String × PyVal K)) : List (String × PyVal K) :=
  d.map fun p => (p.1, (new.lookup p.1).getD p.2)

/-- The queries of the first and of the second `try` block of `get_stats_cpx` (recourse/cplex_helper.py:529-534, 543-548). -/
def progressKeys : List String := ["status", "status_code", "iterations", "nodes_processed", "nodes_remaining"]

/-- See `progressKeys`. -/
def solutionKeys : List String := ["values", "objval", "upperbound", "lowerbound", "gap"]

/-- `INITIAL_SOLUTION_INFO` (recourse/cplex_helper.py:512-525); `nan` stands as `None`. -/
def initialStats : List (String × PyVal K) :=
  [("status", .str "no solution exists"), ("status_code", .none), ("has_solution", .bool false), ("has_mipstats", .bool false),
    ("iterations", .int 0), ("nodes_processed", .int 0), ("nodes_remaining", .int 0), ("values", .none), ("objval", .none),
    ("upperbound", .none), ("lowerbound", .none), ("gap", .none)]

/-- One `try` block: the queries in order, `CplexError` is swallowed, and then nothing is stored. -/
def statsBlock (sol : CpxSol K) (keys : List String) (flag : String) (info : List (String × PyVal K)) :
    Except Err (List (String × PyVal K)) :=
  match keys.mapM fun (k : String) => do .ok (k, ← sol k) with
  | .ok new => .ok (dictUpdate (dictUpdate info new) [(flag, .bool true)])
  | .error .cplex => .ok info
  | .error er => .error er

/-- `get_stats_cpx` (recourse/cplex_helper.py:505-554). -/
def getStatsCpx (sol : CpxSol K) : Except Err (List (String × PyVal K)) := do
  let info ← statsBlock sol progressKeys "has_mipstats" initialStats
  statsBlock sol solutionKeys "has_solution" info

end Recourse
