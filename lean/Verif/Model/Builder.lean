import Verif.Model.ActionSet
import Verif.Model.Mip

/-!
# Model of `RecourseBuilder` (recourse/builder.py)
-/

namespace Recourse

variable {K : Type} [Field K] [LinearOrder K] [IsStrictOrderedRing K] [FloorRing K]

/-- The two back ends (recourse/builder.py:610, 962, 1232-1235). -/
inductive Backend
  | cpx | pymip
  deriving DecidableEq, Repr

/-- MIP cost types (recourse/defaults.py:60). -/
inductive CostType
  | total | loc | max
  deriving DecidableEq, Repr

/-- Enumeration types (recourse/defaults.py:66). -/
inductive EnumType
  | mutuallyExclusive | distinctSubsets
  deriving DecidableEq, Repr

/-- One value of the dictionary `build_info` (recourse/builder.py:391-402); `kNull` is the position of
the nullifying action (the index in `nullify_ind_name`). -/
structure Feat (K : Type) where
  name : String
  idx : ℕ
  coef : K
  actions : List K
  costs : List K
  kNull : ℕ
  deriving DecidableEq

/-- Values that may be infinite or NaN in results. -/
inductive XV (K : Type)
  | fin (x : K) | inf | nan
  deriving DecidableEq

/-- Result dictionary of `fit`/`populate` (recourse/builder.py:454-477, 828-884, 1120-1175).
`actions = none`/`costs = none` stand for the NaN-filled vectors of the empty result.  Not modelled:
`status`, `lowerbound`, `gap`, `iterations`, node counts and `runtime` (solver internals). -/
structure Info (K : Type) where
  feasible : Bool
  cost : XV K
  actions : Option (List K)
  costs : Option (List K)
  upperbound : XV K

/-- `RecourseBuilder`: its instance attributes (recourse/builder.py:46-89, 805-806, 1090-1091).
`sol` is the state of the solver object after the last `solve_mip`, `clock` counts solver calls. -/
structure Builder (K : Type) where
  backend : Backend
  coefs : List K
  intercept : K
  aset : ActionSet K
  varNames : List String
  actionableIdx : List ℕ
  costType : CostType
  minItems : ℕ
  maxItems : ℕ
  x : Option (List K)
  mip : Option (Mip K)
  feats : List (Feat K)
  sol : Outcome K
  clock : ℕ

/-- `n_actionable` (recourse/builder.py:165-167). -/
def Builder.nActionable (b : Builder K) : ℕ := b.actionableIdx.length

/-- `score(x)` (recourse/builder.py:195-201). -/
def Builder.score (b : Builder K) (x : List K) : K := dot b.coefs x + b.intercept

/-- `prediction(x)` (recourse/builder.py:204-205). -/
def Builder.prediction (b : Builder K) (x : List K) : Int := sgn (b.score x)

/-! ## Build info -/

/-- `cost_up` (recourse/builder.py:346-351). -/
def costUp (ext : Ext K) (ct : CostType) (c : List K) : List K :=
  let c0 := c.headD 0
  if ct = .loc then c.map fun p => ext.log ((1 - c0) / (1 - p)) else c.map fun p => p - c0

/-- `cost_dn` (recourse/builder.py:346-351). -/
def costDn (ext : Ext K) (ct : CostType) (c : List K) : List K :=
  let c0 := c.headD 0
  if ct = .loc then c.map fun p => ext.log ((1 - p) / (1 - c0)) else c.map fun p => c0 - p

/-- Orientation of the action grid: descending grids are reversed (recourse/builder.py:360-366). -/
def orient (ext : Ext K) (ct : CostType) (a p : List K) : List K × List K :=
  if isClose (a.getLastD 0) 0 then (a.reverse, costDn ext ct p.reverse) else (a, costUp ext ct p)

/-- `bug_idx` membership: `c <= 0` or `a` close to 0 (recourse/builder.py:369). -/
def isBug (a c : K) : Bool := decide (c ≤ 0) || isClose a 0

/-- Deletion of all flagged positions but the first flagged one (recourse/builder.py:369-374), on the
list of pairs `(a, c)`.  `none` if nothing is flagged: `bug_idx.pop(0)` raises `IndexError`. -/
def dropBugs : List (K × K) → Option (List (K × K))
  | [] => none
  | (a, c) :: t =>
      if isBug a c then some ((a, c) :: t.filter (fun q => !isBug q.1 q.2))
      else (dropBugs t).map ((a, c) :: ·)

/-- `np.flatnonzero(a == -x)[0]` (recourse/builder.py:387). -/
def nullIndex (a : List K) (x : K) : Except Err ℕ :=
  if (-x) ∈ a then .ok (a.idxOf (-x)) else .error .index

/-- The body of the loop over features (recourse/builder.py:356-418) for a feature with at least two
offered actions.  `np.min(dc)` raises `ValueError` when only one action is left (418). -/
def mkFeat (ext : Ext K) (b : Builder K) (x : List K) (constrained : List String)
    (g : GridEntry K) : Except Err (Feat K) := do
  let (a, c) := orient ext b.costType g.acts g.pcts
  let some ac := dropBugs (a.zip c) | .error .index                      -- 371
  let a := ac.map (·.1)
  let c := ac.map (·.2)
  if g.name ∉ b.varNames then .error .key else                           -- 376
  let idx := b.varNames.idxOf g.name
  let some w := b.coefs[idx]? | .error .index                            -- 377
  let some xj := x[idx]? | .error .index                                 -- 385
  let kNull ← if g.name ∈ constrained ∧ 0 < xj then nullIndex a xj else .ok 0  -- 386-389
  if (npDiff c).isEmpty then .error .value else                          -- 418
  .ok { name := g.name, idx := idx, coef := w, actions := a, costs := c, kNull := kNull }

/-- `_check_mip_build_info` for one feature (recourse/builder.py:431-448). -/
def checkFeat (y : Int) (constrained : List String) (f : Feat K) : Bool :=
  !(isClose f.coef 0)                                                    -- 433
    && decide (f.costs.headD 1 = 0) && decide (f.actions.headD 1 = 0)    -- 436-437
    && (decide (f.name ∈ constrained)                                    -- 439-443
        || (if 0 < y * sgn f.coef then f.actions.tail.all (fun a => decide (0 < a))
            else f.actions.tail.all (fun a => decide (a < 0))))
    && decide (2 ≤ f.actions.length)                                     -- 445
    && decide (f.actions.length = f.costs.length)                        -- 446
    && decide f.actions.Nodup && decide f.costs.Nodup                    -- 447-448

/-- `_get_mip_build_info()` (recourse/builder.py:335-424). -/
def Builder.buildInfo (ext : Ext K) (b : Builder K) (x : List K) : Except Err (List (Feat K)) := do
  let constrained := b.aset.cons.flatNames                               -- 343
  let grid ← b.aset.feasibleGrid ext x true true                         -- 354
  let feats ← (grid.filter fun g => decide (2 ≤ g.acts.length)).mapM (mkFeat ext b x constrained)
  pyAssert (feats.all (checkFeat b.aset.yDesired constrained))           -- 421-422
  .ok feats

/-! ## Building the program -/

/-- The indicator variables `u[idx][k]` of a feature (recourse/builder.py:397). -/
def Feat.inds (f : Feat K) : List Var := (List.range f.actions.length).map (Var.u f.idx)

/-- `nullify_ind_names[j] for j in c.indices` (recourse/builder.py:731, 1059): column indices are used
as positions in the list of usable features; `IndexError` if out of range. -/
def nullNames (feats : List (Feat K)) (indices : List ℕ) : Except Err (List Var) :=
  indices.mapM fun j => match feats[j]? with
    | some f => .ok (Var.u f.idx f.kNull)
    | none => .error .index

/-- `epsilon = min(cost_df) / sum(cost_ub)` (recourse/builder.py:417-418, 750, 1076).  For an empty list
of features the code computes `inf / 0`; the value is then unused (there is no cost variable), and the
model uses 0. -/
def epsilon (feats : List (Feat K)) : K :=
  if feats.isEmpty then 0
  else npMin (feats.map fun f => npMin (npDiff f.costs)) / (feats.map fun f => npMax f.costs).sum

/-- Declarations of `a[j]` (recourse/builder.py:660-663, 993-1001). -/
def declA (f : Feat K) : VarDecl K :=
  { v := .a f.idx, kind := .cont, lb := npMin f.actions, ub := some (npMax f.actions) }

/-- Declarations of `u[j][k]` (recourse/builder.py:675, 1017-1020). -/
def declU (f : Feat K) : List (VarDecl K) :=
  f.inds.map fun v => { v := v, kind := .bin, lb := 0, ub := some 1 }

/-- Declarations of `c[j]` (recourse/builder.py:751-753, 1078-1081). -/
def declC (f : Feat K) : VarDecl K := { v := .c f.idx, kind := .cont, lb := 0, ub := none }

/-- Score constraint (recourse/builder.py:668-672, 1008-1014). -/
def scoreCon (y : Int) (score : K) (feats : List (Feat K)) : LinCon K :=
  { name := .other, terms := feats.map fun f => (Var.a f.idx, f.coef),
    sense := if 0 < y then .ge else .le, rhs := -score }

/-- CPLEX form of the `set_a`/`pick_a` constraints (recourse/builder.py:682-686). -/
def pickConsCpx (f : Feat K) : List (LinCon K) :=
  [{ name := .other, terms := (Var.a f.idx, -1) :: f.inds.zip f.actions, sense := .eq, rhs := 0 },
   { name := .other, terms := f.inds.map fun v => (v, 1), sense := .eq, rhs := 1 }]

/-- Python-MIP form of the `set_a`/`pick_a` constraints (recourse/builder.py:1028-1032), with all
variables moved to the left-hand side. -/
def pickConsPy (f : Feat K) : List (LinCon K) :=
  [{ name := .other, terms := f.inds.zip f.actions ++ [(Var.a f.idx, -1)], sense := .eq, rhs := 0 },
   { name := .other, terms := f.inds.map fun v => (v, 1), sense := .eq, rhs := 1 }]

/-- `action_off_names` (recourse/builder.py:406). -/
def offVars (feats : List (Feat K)) : List Var := feats.map fun f => Var.u f.idx 0

/-- `nullify_ind_names` (recourse/builder.py:409). -/
def nullVars (feats : List (Feat K)) : List Var := feats.map fun f => Var.u f.idx f.kNull

/-- Limits on the number of changed features (recourse/builder.py:702-706, 1051-1053). -/
def sizeCons (feats : List (Feat K)) (minItems maxItems : ℕ) : List (LinCon K) :=
  [{ name := .maxItems, terms := (offVars feats).map fun v => (v, 1), sense := .ge,
     rhs := (feats.length : K) - (maxItems : K) },
   { name := .minItems, terms := (offVars feats).map fun v => (v, 1), sense := .le,
     rhs := (feats.length : K) - (minItems : K) }]

/-- CPLEX form of a subset limit: a ranged constraint (recourse/builder.py:730-736). -/
def limitConsCpx (feats : List (Feat K)) (c : SubsetLimit) : Except Err (List (LinCon K)) := do
  let vs ← nullNames feats c.indices
  .ok [{ name := .other, terms := vs.map fun v => (v, -1),
         sense := .range ((c.ub - c.lb : Int) : K), rhs := (c.lb : K) - (c.indices.length : K) }]

/-- Python-MIP form of a subset limit (recourse/builder.py:1056-1062): `k - sum >= lb` and
`k - sum <= ub`, with the constant `k` moved to the right-hand side. -/
def limitConsPy (feats : List (Feat K)) (c : SubsetLimit) : Except Err (List (LinCon K)) := do
  let vs ← nullNames feats c.indices
  .ok [{ name := .other, terms := vs.map fun v => (v, -1), sense := .ge,
         rhs := (c.lb : K) - (c.indices.length : K) },
       { name := .other, terms := vs.map fun v => (v, -1), sense := .le,
         rhs := (c.ub : K) - (c.indices.length : K) }]

/-- CPLEX form of the cost constraints for `max` (recourse/builder.py:763-775). -/
def costConsCpx (f : Feat K) : List (LinCon K) :=
  [{ name := .other, terms := (Var.c f.idx, -1) :: f.inds.zip f.costs, sense := .eq, rhs := 0 },
   { name := .other, terms := [(Var.maxCost, 1), (Var.c f.idx, -1)], sense := .ge, rhs := 0 }]

/-- Python-MIP form of the cost constraints for `max` (recourse/builder.py:1083-1088). -/
def costConsPy (f : Feat K) : List (LinCon K) :=
  [{ name := .other,
     terms := (Var.c f.idx, 1) :: (f.inds.zip f.costs).map (fun t => (t.1, -t.2)),
     sense := .eq, rhs := 0 },
   { name := .other, terms := [(Var.maxCost, 1), (Var.c f.idx, -1)], sense := .ge, rhs := 0 }]

/-- Objective (recourse/builder.py:742-743, 751-753, 1067-1071, 1077-1081). -/
def objective (ct : CostType) (feats : List (Feat K)) : List (Var × K) :=
  match ct with
  | .max => (Var.maxCost, 1) :: feats.map fun f => (Var.c f.idx, epsilon feats)
  | _ => feats.flatMap fun f => f.inds.zip f.costs

/-- Declarations of the cost variables for `max` (recourse/builder.py:751-753, 1077-1081). -/
def costDecls (ct : CostType) (feats : List (Feat K)) : List (VarDecl K) :=
  match ct with
  | .max => { v := .maxCost, kind := .cont, lb := 0, ub := none } :: feats.map declC
  | _ => []

/-- Everything `build_mip` takes from the builder. -/
structure BuildArgs (K : Type) where
  costType : CostType
  minItems : ℕ
  maxItems : ℕ
  yDesired : Int
  limits : List SubsetLimit
  score : K
  feats : List (Feat K)

/-- `_RecourseBuilderCPX.build_mip` (recourse/builder.py:636-806). For `total`/`local` and no usable
feature `indices.pop('cost_var_names')` raises `KeyError` (741). -/
def buildCpx (p : BuildArgs K) : Except Err (Mip K) := do
  let lims ← p.limits.mapM (limitConsCpx p.feats)
  if p.costType ≠ .max ∧ p.feats.isEmpty then .error .key else
  .ok { decls := p.feats.map declA ++ p.feats.flatMap declU ++ costDecls p.costType p.feats
        cons := scoreCon p.yDesired p.score p.feats :: p.feats.flatMap pickConsCpx
          ++ sizeCons p.feats (max p.minItems 1) p.maxItems ++ lims.flatten
          ++ (if p.costType = .max then p.feats.flatMap costConsCpx else [])
        sos := p.feats.map Feat.inds
        obj := objective p.costType p.feats }

/-- `_RecourseBuilderPythonMIP.build_mip` (recourse/builder.py:971-1091); `KeyError` as above (1066). -/
def buildPy (p : BuildArgs K) : Except Err (Mip K) := do
  let lims ← p.limits.mapM (limitConsPy p.feats)
  if p.costType ≠ .max ∧ p.feats.isEmpty then .error .key else
  .ok { decls := p.feats.map declA ++ p.feats.flatMap declU ++ costDecls p.costType p.feats
        cons := scoreCon p.yDesired p.score p.feats :: p.feats.flatMap pickConsPy
          ++ sizeCons p.feats (max p.minItems 1) p.maxItems ++ lims.flatten
          ++ (if p.costType = .max then p.feats.flatMap costConsPy else [])
        sos := p.feats.map Feat.inds
        obj := objective p.costType p.feats }

/-- `build_mip` of the chosen back end. -/
def buildMip (be : Backend) (p : BuildArgs K) : Except Err (Mip K) :=
  match be with
  | .cpx => buildCpx p
  | .pymip => buildPy p

/-- Arguments of `build_mip` at a point (recourse/builder.py:643-648, 978-985). -/
def Builder.buildArgs (b : Builder K) (x : List K) (feats : List (Feat K)) : BuildArgs K :=
  { costType := b.costType, minItems := b.minItems, maxItems := b.maxItems,
    yDesired := b.aset.yDesired, limits := b.aset.cons.items, score := b.score x, feats := feats }

/-- `x` setter (recourse/builder.py:176-182): stores `x`, then rebuilds the program.  If building
raises, the new `x` stays stored, the old program remains, and the percentiles evaluated before the failure stay
cached.  The new program has not been solved. -/
def Builder.setX (ext : Ext K) (b : Builder K) (x : List K) : Builder K × Except Err Unit :=
  if x.length ≠ b.coefs.length then (b, .error .assertion)               -- 180
  else
    let b := { b with x := some x }                                      -- 181
    match b.buildInfo ext x with
    | .error er => ({ b with aset := b.aset.visit ext (b.aset.visitOrder ext) }, .error er)
    | .ok feats =>
      let b := { b with aset := b.aset.touch ext true }
      match buildMip b.backend (b.buildArgs x feats) with
      | .error er => (b, .error er)
      | .ok m => ({ b with mip := some m, feats := feats, sol := .unknown }, .ok ())

/-- `RecourseBuilder.__init__` without `x` (recourse/builder.py:46-89) after
`parse_classifier_args`. `_check_rep` (92-103) holds: lengths were checked and
`0 <= 0 <= n_actionable <= n_variables`. -/
def mkBuilder (be : Backend) (ct : CostType) (A : ActionSet K) (w : List K) (t : K) :
    Except Err (Builder K) := do
  pyAssert (decide (A.names.length = w.length))                          -- 61
  let A ← if A.alignmentKnown then .ok A else A.setAlignment w           -- 62-63
  let act := (List.range A.elems.length).filter fun j => match A.elems[j]? with
    | some e => e.actionable
    | none => false                                                      -- 70
  .ok { backend := be, coefs := w, intercept := t, aset := A,
        varNames := A.elems.map (·.name), actionableIdx := act, costType := ct,
        minItems := 0, maxItems := act.length, x := none, mip := none, feats := [],
        sol := .unknown, clock := 0 }

/-! ## Solving -/

/-- `solve_mip` (recourse/builder.py:823-824, 1115-1116); the `mip` property raises `ValueError` when
there is no program (208-212). -/
def Builder.solve (o : Oracle K) (b : Builder K) : Builder K :=
  match b.mip with
  | none => b
  | some m => { b with sol := o b.clock m, clock := b.clock + 1 }

/-- The point from which `solution_info` reads values: CPLEX uses any primal feasible solution
(recourse/builder.py:834), Python-MIP only one with status `OPTIMAL` (1123). -/
def Builder.reported (b : Builder K) : Option (Var → K) :=
  match b.backend, b.sol with
  | _, .optimal σ => some σ
  | .cpx, .feasible σ => some σ
  | _, _ => none

/-- `_empty_mip_solution_info` (recourse/builder.py:454-477). -/
def emptyInfo : Info K :=
  { feasible := false, cost := .inf, actions := none, costs := none, upperbound := .inf }

/-- `np.put(np.zeros(n), idx, vals)` (recourse/builder.py:849-853, 1139-1143). -/
def npPut (n : ℕ) (iv : List (ℕ × K)) : List K :=
  iv.foldl (fun l p => l.set p.1 p.2) (List.replicate n 0)

/-- Cost values of a solution for `total`/`local`: the costs of the indicators that are on, in order
(recourse/builder.py:845-847, 1133-1137). -/
def onCosts (feats : List (Feat K)) (σ : Var → K) : List K :=
  ((feats.flatMap fun f => f.inds.zip f.costs).filter fun p => decide (σ p.1 ≠ 0)).map (·.2)

/-- `solution_info` (recourse/builder.py:828-884, 1120-1175) after a solve. For `max` the cost values are
those of `c[j]`; `cost_var_names` was removed from `indices` for `total`/`local` (741, 1066). -/
def Builder.solutionInfo (b : Builder K) : Info K :=
  match b.reported, b.mip with
  | some σ, some m =>
      let vidx := b.feats.map (·.idx)
      let actionValues := b.feats.map fun f => σ (Var.a f.idx)
      let costValues := if b.costType = .max then b.feats.map fun f => σ (Var.c f.idx)
                        else onCosts b.feats σ
      { feasible := true
        cost := .fin (if b.costType = .max then σ .maxCost else m.objVal σ)
        actions := some (npPut b.coefs.length (vidx.zip actionValues))
        costs := some (npPut b.coefs.length (vidx.zip costValues))
        upperbound := .fin (m.objVal σ) }
  | _, _ => emptyInfo

/-- `fit()` (recourse/builder.py:524-548): needs a program.  Time, node and display settings only act
on the solver. -/
def Builder.fit (o : Oracle K) (b : Builder K) : Except Err (Builder K × Info K) :=
  match b.mip with
  | none => .error .assertion
  | some _ => let b := b.solve o; .ok (b, b.solutionInfo)

/-! ## Enumeration -/

/-- Whether an indicator value counts as "the action is on" (`np.isclose(value, 0.0)`,
recourse/builder.py:917, 948, 1206, 1221). -/
def isOn (σ : Var → K) (v : Var) : Bool := isClose (σ v) 0

/-- `remove_all_features` (recourse/builder.py:906-920, 1196-1210): lower bound 1 for the "off" indicator
of every feature that is on. -/
def cutAll (feats : List (Feat K)) (σ : Var → K) (m : Mip K) : Mip K :=
  let on := (offVars feats).filter (isOn σ)
  { m with decls := m.decls.map fun d => if d.v ∈ on then { d with lb := 1 } else d }

/-- The indicators used by `remove_feature_combination`: CPLEX takes the nullifying ones
(recourse/builder.py:943), Python-MIP the "off" ones (1218). -/
def cutVars (be : Backend) (feats : List (Feat K)) : List Var :=
  match be with
  | .cpx => nullVars feats
  | .pymip => offVars feats

/-- The constraint of `remove_feature_combination` (recourse/builder.py:943-958, 1218-1228). -/
def comboCon (vars : List Var) (σ : Var → K) : LinCon K :=
  { name := .other
    terms := vars.map fun v => (v, if isOn σ v then -1 else 1)
    sense := .le
    rhs := ((vars.filter fun v => !isOn σ v).length : K) - 1 }

/-- `remove_feature_combination` (recourse/builder.py:923-959, 1213-1229). -/
def cutCombo (be : Backend) (feats : List (Feat K)) (σ : Var → K) (m : Mip K) : Mip K :=
  { m with cons := m.cons ++ [comboCon (cutVars be feats) σ] }

/-- The removal step of `populate` (recourse/builder.py:579-582, 601). -/
def Builder.removeSolution (et : EnumType) (b : Builder K) (σ : Var → K) : Builder K :=
  match et with
  | .mutuallyExclusive => { b with mip := b.mip.map (cutAll b.feats σ) }
  | .distinctSubsets => { b with mip := b.mip.map (cutCombo b.backend b.feats σ) }

/-- The `while` loop of `populate` (recourse/builder.py:590-602).  `total = none` is `float('inf')`,
`fuel` bounds the number of iterations: `none` is returned if it runs out before the loop ends. -/
def Builder.popLoop (o : Oracle K) (et : EnumType) :
    ℕ → Option ℕ → Builder K → List (Info K) → Option (Builder K × List (Info K))
  | _, some 0, b, acc => some (b, acc)
  | 0, _, _, _ => none
  | fuel + 1, total, b, acc =>
      let b := b.solve o
      match b.reported with
      | none => some (b, acc)
      | some σ =>
          Builder.popLoop o et fuel (total.map (· - 1)) (b.removeSolution et σ)
            (acc ++ [b.solutionInfo])

/-- `populate(total_items, enumeration_type)` (recourse/builder.py:551-607). -/
def Builder.populate (o : Oracle K) (et : EnumType) (fuel : ℕ) (total : Option ℕ) (b : Builder K) :
    Except Err (Option (Builder K × List (Info K))) := do
  if b.mip.isNone then .error .assertion                                 -- 574
  else do
    pyAssert (match total with | some n => decide (1 ≤ n) | none => true) -- 575
    .ok (b.popLoop o et fuel total [])

/-! ## Item limits -/

/-- `set_rhs` on a named constraint (recourse/builder.py:888-903, 1179-1194). -/
def Mip.setRhs (m : Mip K) (n : CName) (r : K) : Mip K :=
  { m with cons := m.cons.map fun c => if c.name = n then { c with rhs := r } else c }

/-- The `min_items` setter (recourse/builder.py:309-316): `None` means 0, negative numbers fail the assertion.
The program in force is not touched.  Simplification: the number is an integer. -/
def Builder.setMinItems (b : Builder K) (k : Option Int) : Builder K × Except Err Unit :=
  match k with
  | none => ({ b with minItems := 0 }, .ok ())
  | some k => if k < 0 then (b, .error .assertion) else ({ b with minItems := k.toNat }, .ok ())

/-- The `max_items` setter (recourse/builder.py:324-331): `None` means `n_actionable`, larger numbers are
replaced by it, negative numbers fail the assertion. -/
def Builder.setMaxItems (b : Builder K) (k : Option Int) : Builder K × Except Err Unit :=
  match k with
  | none => ({ b with maxItems := b.nActionable }, .ok ())
  | some k =>
      if k < 0 then (b, .error .assertion)
      else ({ b with maxItems := min k.toNat b.nActionable }, .ok ())

/-- `set_mip_item_limits(min_items, max_items)` (recourse/builder.py:275-301).  Note 283 (return when one
is missing), 298 (the local variable of the *other* branch is used; `UnboundLocalError` when that
branch was not taken) and the use of `n_actionable`.  Without a program `self._mip` is `None` and the
access to its constraints raises `AttributeError` (894, 903, 1185, 1194).  For a negative `min_items` the
program is changed (293) before the setter raises (294, 315).  Simplification: the numbers are integers. -/
def Builder.setItemLimits (b : Builder K) (lo hi : Option Int) : Builder K × Except Err Unit :=
  match lo, hi with
  | some lo, some hi =>
      if hi < lo then (b, .error .assertion)                             -- 288
      else if lo ≠ (b.minItems : Int) then
        match b.mip with
        | none => (b, .error .attribute)
        | some m =>
          let r : K := (b.nActionable : K) - (lo : K)                    -- 292
          let m := m.setRhs .minItems r                                  -- 293
          if lo < 0 then ({ b with mip := some m }, .error .assertion)   -- 294
          else if hi ≠ (b.maxItems : Int) then
            ({ b with mip := some (m.setRhs .maxItems r), minItems := lo.toNat,
                      maxItems := min hi.toNat b.nActionable }, .ok ())  -- 294, 298-299, 331
          else ({ b with mip := some m, minItems := lo.toNat }, .ok ())
      else if hi ≠ (b.maxItems : Int) then (b, .error .unbound)          -- 298
      else (b, .ok ())
  | _, _ => (b, .ok ())                                                  -- 283

end Recourse
