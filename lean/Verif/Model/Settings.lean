import Verif.Model.Builder

/-!
# Model of the solver settings of `RecourseBuilder`
-/

namespace Recourse

variable {K : Type} [Field K] [LinearOrder K] [IsStrictOrderedRing K] [FloorRing K]

/-- A requested limit: `None`, a number (`int`/`float`/`bool`), `float('inf')`, or any other object. -/
inductive LimitReq (K : Type)
  | none | num (x : K) | inf | other

/-- A value stored in the attribute `_mip_node_limit`: a limit, or the display flag written there by the
`mip_display` setter (recourse/builder.py:271). -/
inductive NodeAttr (K : Type)
  | limit (v : XV K)
  | flag (b : Bool)

/-- The settings part of a builder: whether there is a program, the limits in force in the solver
object, and the attributes `_mip_time_limit`, `_mip_node_limit` (`none`: not yet set).
`maxTime`, `maxNodes` are CPLEX's largest admissible values; `dfltTime`, `dfltNodes` the limits of a new
solver object. -/
structure Settings (K : Type) where
  backend : Backend
  maxTime : K
  maxNodes : K
  dfltTime : XV K
  dfltNodes : XV K
  hasMip : Bool
  time : XV K
  nodes : XV K
  timeAttr : Option (XV K)
  nodeAttr : Option (NodeAttr K)

/-- The value computed by the limit setters (recourse/builder.py:237-242, 249-254). -/
def parseLimit : LimitReq K → Except Err (XV K)
  | .none => .ok .inf
  | .inf => .ok .inf
  | .num x => if 0 < x then .ok (.fin x) else .error .value
  | .other => .error .value

/-- `min(value, max)` with an infinite value allowed. -/
def clip (mx : K) : XV K → XV K
  | .fin x => .fin (min x mx)
  | _ => .fin mx

/-- `_set_mip_time_limit` (recourse/cplex_helper.py:404-421, recourse/builder.py:1095-1096). -/
def Settings.putTime (s : Settings K) (v : XV K) : Settings K :=
  match s.backend with
  | .cpx => { s with time := clip s.maxTime v }
  | .pymip => { s with time := v }

/-- `int(node_limit)`. -/
def XV.trunc : XV K → XV K
  | .fin x => .fin (Recourse.trunc x)
  | v => v

/-- `_set_mip_node_limit` (recourse/cplex_helper.py:424-443, recourse/builder.py:1098-1102): with
Python-MIP an infinite request keeps the limit already in force. -/
def Settings.putNodes (s : Settings K) (v : XV K) : Settings K :=
  match s.backend with
  | .cpx => { s with nodes := clip s.maxNodes v.trunc }
  | .pymip => match v with
    | .fin x => { s with nodes := .fin (Recourse.trunc x) }
    | _ => { s with nodes := s.nodes.trunc }

/-- `mip_time_limit = value` (recourse/builder.py:235-244). -/
def Settings.setTime (s : Settings K) (r : LimitReq K) : Settings K × Except Err Unit :=
  match parseLimit r with
  | .error er => (s, .error er)
  | .ok v => if s.hasMip then ({ s.putTime v with timeAttr := some v }, .ok ()) else (s, .error .value)

/-- `mip_node_limit = value` (recourse/builder.py:247-256). -/
def Settings.setNodes (s : Settings K) (r : LimitReq K) : Settings K × Except Err Unit :=
  match parseLimit r with
  | .error er => (s, .error er)
  | .ok v =>
      if s.hasMip then ({ s.putNodes v with nodeAttr := some (.limit v) }, .ok ()) else (s, .error .value)

/-- `mip_display = flag` (recourse/builder.py:259-271) for a boolean: the flag is stored in
`_mip_node_limit`. -/
def Settings.setDisplay (s : Settings K) (flag : Bool) : Settings K × Except Err Unit :=
  if s.hasMip then ({ s with nodeAttr := some (.flag flag) }, .ok ()) else (s, .error .value)

/-- Reading `mip_display` (recourse/builder.py:220-222): the attribute `_mip_display_flag` is never
assigned. -/
def Settings.getDisplay (_ : Settings K) : Except Err Bool := .error .attribute

/-- Building a program: a new solver object with its default limits (recourse/builder.py:652, 805, 989,
1090). -/
def Settings.rebuild (s : Settings K) : Settings K :=
  { s with hasMip := true, time := s.dfltTime, nodes := s.dfltNodes }

/-- The settings made by `fit`/`populate` before solving (recourse/builder.py:538-540, 585-587). -/
def Settings.prepare (s : Settings K) (flag : Bool) (t n : LimitReq K) : Settings K × Except Err Unit :=
  match s.setDisplay flag with
  | (s, .error er) => (s, .error er)
  | (s, .ok ()) =>
    match s.setTime t with
    | (s, .error er) => (s, .error er)
    | (s, .ok ()) => s.setNodes n

end Recourse
