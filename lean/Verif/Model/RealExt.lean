import Verif.Model.Element
import Mathlib.Analysis.SpecialFunctions.Pow.Real
import Mathlib.Analysis.Real.Pi.Bounds
import Mathlib.Algebra.Order.Floor.Ring

/-!
# The external functions over the real numbers

The model takes `np.log`, `scipy.stats.gaussian_kde` and the iteration order of sets as parameters (`Ext`).  Here
they are instantiated by the functions that numpy and scipy compute, without rounding.
-/

namespace Recourse

/-- Sample mean. -/
noncomputable def sampleMean (l : List ℝ) : ℝ := l.sum / l.length

/-- Sample variance with `n - 1` in the denominator (`np.cov` as called by `scipy.stats.gaussian_kde`). -/
noncomputable def sampleVar (l : List ℝ) : ℝ :=
  (l.map fun v => (v - sampleMean l) ^ 2).sum / ((l.length : ℝ) - 1)

/-- The squared bandwidth of `scipy.stats.gaussian_kde` for one-dimensional data: the sample variance times the
square of Scott's factor `n ** (-1 / 5)`. -/
noncomputable def kdeVar (l : List ℝ) : ℝ := sampleVar l * ((l.length : ℝ) ^ (-(1 : ℝ) / 5)) ^ 2

/-- `scipy.stats.gaussian_kde(values)` with its default bandwidth (recourse/action_set.py:810): `ValueError` for
fewer than two values, `LinAlgError` for a singular covariance, else the mean of normal densities centred at the
data. -/
noncomputable def gaussianKde (l : List ℝ) : Except Err (ℝ → ℝ) :=
  if l.length ≤ 1 then .error .value
  else if sampleVar l = 0 then .error .linalg
  else .ok fun v =>
    (l.map fun u => Real.exp (-(v - u) ^ 2 / (2 * kdeVar l)) / Real.sqrt (2 * Real.pi * kdeVar l)).sum / l.length

/-- The external functions over the real numbers; sets of names are iterated in the order `order`. -/
noncomputable def realExt (order : List String → List String) : Ext ℝ :=
  { log := Real.log, kde := gaussianKde, setOrder := order }

end Recourse
