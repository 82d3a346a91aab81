import Verif.Num

/-!
# Model of `recourse/helper_functions.py` (classifier arguments)
-/

namespace Recourse

variable {K : Type}

/-- A scikit-learn like object: number of classes if `classes_` exists, `coef_` (rows) and `intercept_`
if they exist (recourse/helper_functions.py:4-11). -/
structure Clf (K : Type) where
  nClasses : Option ℕ
  coef : Option (List (List K))
  intercept : Option (List K)

/-- `is_sklearn_linear_classifier` (recourse/helper_functions.py:4-11). -/
def Clf.isLinear (c : Clf K) : Bool :=
  (c.nClasses == some 2) && (c.coef.isSome && c.intercept.isSome)

/-- A positional argument of `parse_classifier_args`: a classifier object, a list/array of
coefficients (nested rows are flattened), or a number.  Anything else is `other`. -/
inductive ClfArg (K : Type)
  | clf (c : Clf K)
  | vec (w : List K)
  | num (t : K)
  | other

/-- `np.array(a).flatten()` of a numeric argument (recourse/helper_functions.py:68-69, 75-76). -/
def ClfArg.asVec : ClfArg K → Option (List K)
  | .vec w => some w
  | .num t => some [t]
  | _ => none

/-- Keyword arguments recognised by `parse_classifier_args` (recourse/helper_functions.py:33-51).
Simplification: `coefficients` is a list or array of numbers (already flattened), `intercept` a number
or an array of numbers. -/
structure ClfKwargs (K : Type) where
  clf : Option (Clf K) := none
  classifier : Option (Clf K) := none
  coefficients : Option (List K) := none
  intercept : Option (List K) := none

/-- `float(t)` for a one-element array or a number (recourse/helper_functions.py:76). -/
def pyFloat : List K → Except Err K
  | [t] => .ok t
  | _ => .error .type

/-- The pair `(coef_, intercept_)` of an object that passed `is_sklearn_linear_classifier`, then
`flatten` and `float` (recourse/helper_functions.py:35-43, 75-76). -/
def Clf.unpack (c : Clf K) : Except Err (List K × K) :=
  match c.coef, c.intercept with
  | some w, some t => do
      let t ← pyFloat t
      .ok (w.flatten, t)
  | _, _ => .error .attribute

/-- `parse_classifier_args(*args, **kwargs)` (recourse/helper_functions.py:14-79).  All numbers are
finite in the model, so the two final assertions hold.  A single positional argument that is neither a
classifier nor a vector leaves `w = t = None`, and `float(None)` raises `TypeError`. -/
def parseClassifierArgs [Zero K] (args : List (ClfArg K)) (kw : ClfKwargs K) :
    Except Err (List K × K) :=
  match kw.clf, kw.classifier, kw.coefficients with
  | some c, _, _ => if c.isLinear then c.unpack else .error .assertion
  | none, some c, _ => if c.isLinear then c.unpack else .error .assertion
  | none, none, some w => do
      let t ← pyFloat (kw.intercept.getD [0])
      .ok (w, t)
  | none, none, none =>
      match args with
      | [.clf c] => if c.isLinear then c.unpack else .error .type
      | [.vec w] => .ok (w, 0)
      | [_] => .error .type
      | [a, b] =>
          match a.asVec, b.asVec with
          | some w, some t => do
              let t ← pyFloat t
              .ok (w, t)
          | _, _ => .error .type
      | _ => .error .value

end Recourse
