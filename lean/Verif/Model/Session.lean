import Verif.Model.Flipset
import Verif.Model.Auditor

/-!
# Model of a program that uses several objects

In the other modules a builder, an auditor and a flipset carry their action set as a value.  In the code they refer to it: all objects made for an
action set share it (recourse/builder.py:65, recourse/auditor.py:33, 47, recourse/flipset.py:34, 174), and a flipset may share the builder of
somebody else (recourse/flipset.py:47).  Here a session is a heap of objects that refer to each other, and every call reads and
writes the shared objects.
-/

namespace Recourse

variable {K : Type} [Field K] [LinearOrder K] [IsStrictOrderedRing K] [FloorRing K]

/-- A reference to a builder: made by the user, the one of an auditor (recourse/auditor.py:45), or the one a flipset makes when it is first
populated (recourse/flipset.py:174). -/
inductive BRef
  | named (n : ℕ) | ofAuditor (a : ℕ) | ofFlipset (f : ℕ)
  deriving DecidableEq

/-- The objects of a program.  A builder is stored with the reference to its action set, an auditor with its own coefficients and intercept
(its builder is `ofAuditor`), a flipset with the references to its action set and its builder.  The fields `aset` and `builder` of stored
objects are not read. -/
structure Session (K : Type) where
  sets : ℕ → Option (ActionSet K)
  builders : BRef → Option (ℕ × Builder K)
  auditors : ℕ → Option (List K × K)
  flipsets : ℕ → Option (ℕ × BRef × Flipset K)

/-- A program that has made nothing yet. -/
def Session.empty : Session K := ⟨fun _ => none, fun _ => none, fun _ => none, fun _ => none⟩

/-- Calls to an action set or to one of its features (recourse/action_set.py). -/
inductive SetCall (K : Type)
  | align (w : List K)
  | setY (y : Int)
  | addConstraint (names : List String) (lb ub : Int) (id : Option String)
  | removeConstraint (id : String)
  | setAttr (attr : String) (v : PyVal K)
  | setSlice (idx : PyIdx K) (attr : String) (v : PyVal K)
  | setElem (n attr : String) (v : PyVal K)
  | updateGrid (j : ℕ)
  | percentile (j : ℕ)
  | interp (j : ℕ) (left right : K)
  | replace (n : String) (values : List K) (bounds : PyVal K) (vt : Option VType) (act : Bool) (st : PyVal K) (sd : K) (ss : PyVal K)

/-- The set after a call; a call that raises leaves what the respective function leaves. -/
def ActionSet.call (ext : Ext K) (A : ActionSet K) : SetCall K → ActionSet K
  | .align w => match A.setAlignment w with
    | .ok A' => A'
    | .error _ => A
  | .setY y => match A.setYDesired y with
    | .ok A' => A'
    | .error _ => A
  | .addConstraint names lb ub id => match A.addConstraint names lb ub id with
    | .ok (A', _) => A'
    | .error _ => A
  | .removeConstraint id => match A.removeConstraint id with
    | .ok A' => A'
    | .error _ => A
  | .setAttr attr v => (A.setAttr attr v).1
  | .setSlice idx attr v => (A.setSliceAttr idx attr v).1
  | .setElem n attr v => (A.setElemAttr n attr v).1
  | .updateGrid j => match A.elems[j]? with
    | none => A
    | some e => match e.updateGrid with
      | .ok e' => { A with elems := A.elems.set j e' }
      | .error _ => A
  | .percentile j => match A.elems[j]? with
    | none => A
    | some e => { A with elems := A.elems.set j (e.fillCache ext) }
  | .interp j left right => match A.elems[j]? with
    | none => A
    | some e => match e.updateInterpolator ext left right with
      | .ok e' => { A with elems := A.elems.set j e' }
      | .error _ => A
  | .replace n values bounds vt act st sd ss => match mkElem n values bounds vt act st sd ss with
    | .ok e => (A.setItem n (some e)).1
    | .error _ => A

/-- Calls to a builder (recourse/builder.py). -/
inductive BuilderCall (K : Type)
  | setX (x : List K)
  | fit (o : Oracle K)
  | populate (o : Oracle K) (et : EnumType) (fuel : ℕ) (total : Option ℕ)
  | limits (lo hi : Option Int)
  | minItems (k : Option Int)
  | maxItems (k : Option Int)

/-- What the caller sees of a call. -/
inductive Reply (K : Type)
  | done
  | failed (er : Err)
  | infos (l : List (Info K))
  | audit (l : List (ℕ × AuditRow K))
  | table (r : Except Err Unit) (items : List (Info K)) (rows : List (FlipRow K))

/-- The reply of a call that only succeeds or fails. -/
def Reply.of : Except Err Unit → Reply K
  | .ok () => .done
  | .error er => .failed er

/-- The builder after a call, and the reply.  `none`: the enumeration has not come to an end within the fuel. -/
def Builder.call (ext : Ext K) (b : Builder K) : BuilderCall K → Option (Builder K × Reply K)
  | .setX x => some ((b.setX ext x).1, .of (b.setX ext x).2)
  | .fit o => match b.fit o with
    | .ok (b', i) => some (b', .infos [i])
    | .error er => some (b, .failed er)
  | .populate o et fuel total => match b.populate o et fuel total with
    | .ok (some (b', l)) => some (b', .infos l)
    | .ok none => none
    | .error er => some (b, .failed er)
  | .limits lo hi => some ((b.setItemLimits lo hi).1, .of (b.setItemLimits lo hi).2)
  | .minItems k => some ((b.setMinItems k).1, .of (b.setMinItems k).2)
  | .maxItems k => some ((b.setMaxItems k).1, .of (b.setMaxItems k).2)

/-- The builder `r` refers to, with the action set it shares as that is now. -/
def Session.builder (S : Session K) (r : BRef) : Option (Builder K) :=
  match S.builders r with
  | none => none
  | some (k, b) => match S.sets k with
    | none => none
    | some A => some { b with aset := A }

/-- The auditor `a`, with its builder as that is now. -/
def Session.auditor (S : Session K) (a : ℕ) : Option (Auditor K) :=
  match S.auditors a, S.builder (.ofAuditor a) with
  | some (w, t), some b => some ⟨w, t, b⟩
  | _, _ => none

/-- The flipset `f`, with its action set and its builder as they are now. -/
def Session.flipset (S : Session K) (f : ℕ) : Option (Flipset K) :=
  match S.flipsets f with
  | none => none
  | some (k, r, fs) => match S.sets k with
    | none => none
    | some A => some { fs with aset := A, builder := S.builder r }

/-- The state of a builder changes, and with it that of its action set. -/
def Session.store (S : Session K) (r : BRef) (b : Builder K) : Session K :=
  match S.builders r with
  | none => S
  | some (k, _) => { S with
      sets := Function.update S.sets k (some b.aset)
      builders := Function.update S.builders r (some (k, b)) }

/-- A flipset was populated: it changes, and so does its builder.  If it had none, the one it made is stored, and the action set is as making
it has left it. -/
def Session.storeFlip (S : Session K) (f k : ℕ) (r : BRef) (fs : Flipset K) : Session K :=
  let S' : Session K := { S with flipsets := Function.update S.flipsets f (some (k, r, fs)) }
  match S.builders r, fs.builder with
  | none, none => { S' with sets := Function.update S.sets k (some fs.aset) }
  | none, some b => { S' with
      sets := Function.update S.sets k (some fs.aset)
      builders := Function.update S.builders r (some (k, b)) }
  | some _, some b => S'.store r b
  | some _, none => S'

/-- Calls of a program.  New objects get a name that is not in use. -/
inductive Call (K : Type)
  | newSet (k : ℕ) (X : List (List K)) (names : List String) (y : Int) (custom : List (String × PyVal K)) (dflt st : PyVal K)
  | set (k : ℕ) (c : SetCall K)
  | newBuilder (n k : ℕ) (be : Backend) (ct : CostType) (w : List K) (t : K)
  | builder (r : BRef) (c : BuilderCall K)
  | newAuditor (a k : ℕ) (be : Backend) (w : List K) (t : K)
  | audit (a : ℕ) (o : Oracle K) (X : List (ℕ × List K)) (y : Int)
  | newFlipset (f k : ℕ) (r : Option BRef) (be : Backend) (x w : List K) (t : K)
  | populate (f : ℕ) (o : Oracle K) (fuel : ℕ) (total : Option ℕ) (et : EnumType) (ct : CostType)
  | sort (f : ℕ) (cols : List SortCol) (inplace : Bool)

/-- One call.  `none`: the call names an object that does not exist (or a new one that does), or does not come to an end.  Constructors that
raise make nothing; with the arguments considered here they do not change the action set either (recourse/builder.py:61 and
recourse/action_set.py:265 come first). -/
def Session.call (ext : Ext K) (S : Session K) : Call K → Option (Session K × Reply K)
  | .newSet k X names y custom dflt st =>
    match S.sets k, mkActionSet X names y custom dflt st with
    | none, .ok A => some ({ S with sets := Function.update S.sets k (some A) }, .done)
    | none, .error er => some (S, .failed er)
    | some _, _ => none
  | .set k c =>
    match S.sets k with
    | none => none
    | some A => some ({ S with sets := Function.update S.sets k (some (A.call ext c)) }, .done)
  | .newBuilder n k be ct w t =>
    match S.sets k, S.builders (.named n) with
    | some A, none =>
      match mkBuilder be ct A w t with
      | .error er => some (S, .failed er)
      | .ok b => some ({ S with
          sets := Function.update S.sets k (some b.aset)
          builders := Function.update S.builders (.named n) (some (k, b)) }, .done)
    | _, _ => none
  | .builder r c =>
    match S.builder r with
    | none => none
    | some b =>
      match b.call ext c with
      | none => none
      | some (b', rep) => some (S.store r b', rep)
  | .newAuditor a k be w t =>
    match S.sets k, S.builders (.ofAuditor a), S.auditors a with
    | some A, none, none =>
      match mkAuditor be A w t with
      | .error er => some (S, .failed er)
      | .ok ad => some ({ S with
          sets := Function.update S.sets k (some ad.builder.aset)
          builders := Function.update S.builders (.ofAuditor a) (some (k, ad.builder))
          auditors := Function.update S.auditors a (some (ad.coefs, ad.intercept)) }, .done)
    | _, _, _ => none
  | .audit a o X y =>
    match S.auditor a with
    | none => none
    | some ad =>
      match ad.audit ext o X y with
      | (ad', .ok l) => some (S.store (.ofAuditor a) ad'.builder, .audit l)
      | (ad', .error er) => some (S.store (.ofAuditor a) ad'.builder, .failed er)
  | .newFlipset f k r be x w t =>
    match S.sets k, S.flipsets f, S.builders (.ofFlipset f) with
    | some A, none, none =>
      let ref := r.getD (.ofFlipset f)
      match r, S.builders ref with
      | some _, none => none
      | _, _ => some ({ S with
          flipsets := Function.update S.flipsets f (some (k, ref, mkFlipset be A x w t none)) }, .done)
    | _, _, _ => none
  | .populate f o fuel total et ct =>
    match S.flipsets f, S.flipset f with
    | some (k, r, _), some fs =>
      match fs.populate ext o fuel total et ct with
      | none => none
      | some (fs', res) => some (S.storeFlip f k r fs', .table res fs'.items fs'.rows)
    | _, _ => none
  | .sort f cols inplace =>
    match S.flipsets f with
    | none => none
    | some (k, r, fs) =>
      match fs.sort cols inplace with
      | .error er => some (S, .failed er)
      | .ok fs' => some ({ S with flipsets := Function.update S.flipsets f (some (k, r, fs')) }, .table (.ok ()) fs'.items fs'.rows)

/-- A sequence of calls, with the replies. -/
def Session.run (ext : Ext K) : Session K → List (Call K) → Option (Session K × List (Reply K))
  | S, [] => some (S, [])
  | S, c :: l =>
    match S.call ext c with
    | none => none
    | some (S', rep) =>
      match S'.run ext l with
      | none => none
      | some (S'', reps) => some (S'', rep :: reps)

end Recourse
