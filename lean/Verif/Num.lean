import Mathlib.Algebra.Order.Floor.Ring
import Mathlib.Algebra.Order.Field.Basic
import Mathlib.Data.List.Sort
import Verif.Py

/-!
# The numpy / scipy primitives used by the package

`K` is any linearly ordered field with a floor function; it replaces IEEE doubles
(simplification: exact arithmetic, no rounding, no NaN/inf).
-/

namespace Recourse

variable {K : Type} [Field K] [LinearOrder K] [IsStrictOrderedRing K] [FloorRing K]

/-- `np.sign` (used at recourse/action_set.py:266, 607, 719, 743, recourse/builder.py:205, 440,
recourse/flipset.py:129). -/
def sgn (x : K) : Int := if 0 < x then 1 else if x < 0 then -1 else 0

/-- `np.isclose(a, b, rtol, atol)`, i.e. `|a - b| <= atol + rtol * |b|`. -/
def isCloseTol (rtol atol a b : K) : Bool := decide (|a - b| ≤ atol + rtol * |b|)

/-- `np.isclose(a, b)` with numpy's default tolerances `rtol = 1e-5`, `atol = 1e-8`
(recourse/builder.py:361, 369, 433, 917, 948, 1206, 1221). -/
def isClose (a b : K) : Bool := isCloseTol (1 / 10 ^ 5) (1 / 10 ^ 8) a b

/-- Conversion float → int of numpy (`astype('int')`, recourse/action_set.py:788, and the cast done by
`np.insert` into an integer array, recourse/action_set.py:857): truncation towards zero. -/
def trunc (x : K) : K := if 0 ≤ x then (⌊x⌋ : K) else (⌈x⌉ : K)

/-- Whether `np.mod(x, 1) == 0` (recourse/action_set.py:1064). -/
def isIntegral (x : K) : Bool := decide ((⌊x⌋ : K) = x)

/-- `np.arange(start, stop, step)` (recourse/action_set.py:784): `ceil((stop - start) / step)` points
`start + i * step`.  A zero step makes numpy raise (`ValueError`, or `ZeroDivisionError` for Python
floats; both are represented by `Err.value`).  The code never passes a negative step. -/
def arange (start stop step : K) : Except Err (List K) :=
  if step = 0 then .error .value
  else .ok ((List.range (⌈(stop - start) / step⌉).toNat).map fun (i : ℕ) => start + (i : K) * step)

/-- `np.sort` on a one-dimensional array (recourse/action_set.py:522). -/
def npSort (l : List K) : List K := l.insertionSort (· ≤ ·)

/-- `np.percentile(values, q)` with linear interpolation (recourse/action_set.py:940-941), for a
non-empty `values`: position `q/100 * (n-1)` in the sorted values. -/
def npPercentile (values : List K) (q : K) : K :=
  let v := npSort values
  let pos : K := q / 100 * ((v.length : K) - 1)
  let lo : ℕ := (⌊pos⌋).toNat
  let hi : ℕ := min (lo + 1) (v.length - 1)
  v.getD lo 0 + (pos - (lo : K)) * (v.getD hi 0 - v.getD lo 0)

/-- `np.min` of a non-empty list (recourse/action_set.py:947, recourse/builder.py:414, 418). -/
def npMin (l : List K) : K := l.tail.foldl min (l.headD 0)

/-- `np.max` of a non-empty list (recourse/action_set.py:953, recourse/builder.py:415, 417). -/
def npMax (l : List K) : K := l.tail.foldl max (l.headD 0)

/-- `np.searchsorted(l, x)` (side left) on a sorted array: the number of leading entries `< x`
(recourse/action_set.py:857). -/
def searchsorted (l : List K) (x : K) : ℕ := (l.takeWhile fun v => decide (v < x)).length

/-- `np.insert(l, i, v)` for a scalar position and value (recourse/action_set.py:857). -/
def npInsert (l : List K) (i : ℕ) (v : K) : List K := l.take i ++ v :: l.drop i

/-- `np.cumsum` with a running total (recourse/action_set.py:814). -/
def cumsumFrom (acc : K) : List K → List K
  | [] => []
  | p :: ps => (acc + p) :: cumsumFrom (acc + p) ps

/-- `np.cumsum` (recourse/action_set.py:814). -/
def cumsum (l : List K) : List K := cumsumFrom 0 l

/-- `np.diff` (recourse/builder.py:379). -/
def npDiff : List K → List K
  | a :: b :: t => (b - a) :: npDiff (b :: t)
  | _ => []

/-- Dot product `coefficients.dot(x)` (recourse/builder.py:201, recourse/flipset.py:134,
recourse/auditor.py:94). -/
def dot (w x : List K) : K := (List.zipWith (· * ·) w x).sum

/-- Elementwise `x + a` of two vectors. -/
def vadd (x a : List K) : List K := List.zipWith (· + ·) x a

/-- Linear segments of `scipy.interpolate.interp1d` (kind `linear`): the value at `x` on the first
segment whose right end is `≥ x` (recourse/action_set.py:817).  A one-point table is constant. -/
def interpSeg : List K → List K → K → K
  | g0 :: g1 :: gs, y0 :: y1 :: ys, x =>
      if x ≤ g1 then y0 + (y1 - y0) / (g1 - g0) * (x - g0) else interpSeg (g1 :: gs) (y1 :: ys) x
  | _, y0 :: _, _ => y0
  | _, [], _ => 0

end Recourse
