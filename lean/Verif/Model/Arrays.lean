import Verif.Model.Session

/-!
# Model of the arrays that a program shares with the library

numpy arrays are objects: a program that passes one to the library, or gets one back, can write to it later.  Constructors and setters copy
what they are given (`np.array`, `np.copy`; recourse/helper_functions.py:71, recourse/builder.py:179, recourse/flipset.py:41,
recourse/action_set.py:522), but three getters return the array that the object works with.  Here these arrays live in a memory, next to those of the
program.
-/

namespace Recourse

variable {K : Type} [Field K] [LinearOrder K] [IsStrictOrderedRing K] [FloorRing K]

/-- A session, the arrays that the program can reach, and where the arrays that are in use are: the coefficients of builders and auditors and the points of
flipsets.  Simplification: arrays have one dimension; a matrix is a list of rows. -/
structure Arrays (K : Type) where
  session : Session K
  heap : List (List K)
  builderW : BRef → Option ℕ
  auditorW : ℕ → Option ℕ
  flipX : ℕ → Option ℕ

/-- A program that has made nothing yet. -/
def Arrays.empty : Arrays K := ⟨.empty, [], fun _ => none, fun _ => none, fun _ => none⟩

/-- The contents of an array in use; `old` for arrays that nobody else can reach. -/
def Arrays.read (s : Arrays K) (a : Option ℕ) (old : List K) : List K :=
  match a with
  | none => old
  | some n => s.heap.getD n old

/-- The session as the methods see it: `self._coefficients`, `self.coefficients` and `self._x` are what is in the memory now (recourse/builder.py:201,
recourse/auditor.py:89, 94, recourse/flipset.py:76, 133-137). -/
def Arrays.view (s : Arrays K) : Session K where
  sets := s.session.sets
  builders := fun r => (s.session.builders r).map fun p => (p.1, { p.2 with coefs := s.read (s.builderW r) p.2.coefs })
  auditors := fun a => (s.session.auditors a).map fun p => (s.read (s.auditorW a) p.1, p.2)
  flipsets := fun f => (s.session.flipsets f).map fun p => (p.1, p.2.1, { p.2.2 with x := s.read (s.flipX f) p.2.2.x })

/-- The memory after a call that succeeded: constructors make copies of the arrays they keep (recourse/helper_functions.py:71; an auditor passes its array to
its builder, which copies it again, recourse/auditor.py:36, 45; recourse/flipset.py:41). -/
def Arrays.after (s : Arrays K) (S : Session K) : Call K → Arrays K
  | .newBuilder n _ _ _ w _ =>
      { s with session := S, heap := s.heap ++ [w], builderW := Function.update s.builderW (.named n) (some s.heap.length) }
  | .newAuditor a _ _ w _ =>
      { s with
        session := S
        heap := s.heap ++ [w, w]
        auditorW := Function.update s.auditorW a (some s.heap.length)
        builderW := Function.update s.builderW (.ofAuditor a) (some (s.heap.length + 1)) }
  | .newFlipset f _ _ _ x _ _ =>
      { s with session := S, heap := s.heap ++ [x], flipX := Function.update s.flipX f (some s.heap.length) }
  | _ => { s with session := S }

/-- The reply says that a call raised. -/
def Reply.isFailed : Reply K → Bool
  | .failed _ => true
  | _ => false

/-- Steps of a program: making an array, writing to an array (arrays keep their lengths), a call whose arguments are taken from
arrays, and the getters `x` and `coefficients` of a builder (recourse/builder.py:172-173, 186-187), the attribute `coefficients` of an auditor and the getter `x` of
a flipset (recourse/flipset.py:74-78). -/
inductive ArrStep (K : Type)
  | new (v : List K)
  | write (a : ℕ) (v : List K)
  | call (args : List (List K) → Call K)
  | builderX (r : BRef)
  | builderCoefficients (r : BRef)
  | auditorCoefficients (a : ℕ)
  | flipsetX (f : ℕ)

/-- What the program gets: nothing, an array (its number), or the reply to a call; the call is listed with the values of its arguments. -/
inductive ArrOut (K : Type)
  | nothing
  | array (a : ℕ)
  | reply (c : Call K) (r : Reply K)

/-- One step.  `none`: the step names something that does not exist, or does not come to an end. -/
def Arrays.step (ext : Ext K) (s : Arrays K) : ArrStep K → Option (Arrays K × ArrOut K)
  | .new v => some ({ s with heap := s.heap ++ [v] }, .array s.heap.length)
  | .write a v =>
      if (s.heap[a]?.map List.length) = some v.length then some ({ s with heap := s.heap.set a v }, .nothing) else none
  | .call args =>
      match s.view.call ext (args s.heap) with
      | none => none
      | some (S, r) => some (if r.isFailed then { s with session := S } else s.after S (args s.heap), .reply (args s.heap) r)
  | .builderX r =>                                                        -- np.array(self._x)
      match s.session.builders r with
      | some (_, b) => match b.x with
        | some x => some ({ s with heap := s.heap ++ [x] }, .array s.heap.length)
        | none => none
      | none => none
  | .builderCoefficients r => (s.builderW r).map fun a => (s, .array a)
  | .auditorCoefficients n => (s.auditorW n).map fun a => (s, .array a)
  | .flipsetX f => (s.flipX f).map fun a => (s, .array a)

/-- A program. -/
def Arrays.run (ext : Ext K) (s : Arrays K) : List (ArrStep K) → Option (Arrays K × List (ArrOut K))
  | [] => some (s, [])
  | c :: cs =>
      match s.step ext c with
      | none => none
      | some (s', out) =>
        match s'.run ext cs with
        | none => none
        | some (s'', outs) => some (s'', out :: outs)

end Recourse
