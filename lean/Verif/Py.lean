/-!
# Python values and exceptions used by the model

Exceptions are values: a Python call that may raise is a function into `Except Err _`.
-/

namespace Recourse

/-- The exception classes that the modelled code can raise
(`AssertionError`, `KeyError`, `IndexError`, `ValueError`, `AttributeError`, `TypeError`,
`UnboundLocalError`, `NameError`, `numpy.linalg.LinAlgError` from `scipy.stats.gaussian_kde`, and `CplexError`). -/
inductive Err
  | assertion | key | index | value | attribute | type | unbound | name | linalg | cplex
  deriving DecidableEq, Repr

/-- The three variable types `bool`, `int`, `float`
(recourse/action_set.py:501, `_valid_variable_types`). -/
inductive VType
  | bool | int | float
  deriving DecidableEq, Repr

/-- Python values that users assign to attributes of action sets (recourse/action_set.py:148-154,
1026-1033, 1074-1108).  `ty` is a type object (for `variable_type`), `arr` a one-dimensional
`numpy.ndarray`.  Simplification: numbers `flt` are exact elements of `K`; NaN and infinities are
not values of the model (the code rejects them by `np.isfinite` assertions or comparisons). -/
inductive PyVal (K : Type)
  | none
  | bool (b : Bool)
  | int (i : Int)
  | flt (x : K)
  | str (s : String)
  | ty (t : VType)
  | list (l : List (PyVal K))
  | tuple (l : List (PyVal K))
  | arr (l : List (PyVal K))

/-- `assert c`. -/
def pyAssert (c : Bool) : Except Err Unit := if c then .ok () else .error .assertion

end Recourse
