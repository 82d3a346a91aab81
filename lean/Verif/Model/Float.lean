import Verif.Rounding
import Verif.Model.Element

/-!
# Model of the grids in floating point arithmetic

The functions of `Model/Element.lean` again, with a rounding after every operation.  With `Rounding.exact` they are the functions of
`Model/Element.lean` (Props/Float.lean).
-/

namespace Recourse

variable {K : Type} [Field K] [LinearOrder K] [IsStrictOrderedRing K] [FloorRing K]

/-- Entry `i` of `np.arange(start, stop, step)` for doubles (recourse/action_set.py:784): numpy stores `start` and `start + step`, and fills the rest
with `start + i * delta`, where `delta` is the difference of the first two. -/
def flEntry (r : Rounding K) (start step : K) (i : ℕ) : K :=
  if i = 0 then start
  else if i = 1 then r.fl (start + step)
  else r.fl (start + r.fl ((i : K) * r.fl (r.fl (start + step) - start)))

/-- The number of entries: `ceil((stop - start) / step)` in doubles. -/
def flCount (r : Rounding K) (start stop step : K) : ℕ := (⌈r.fl (r.fl (stop - start) / step)⌉).toNat

/-- `np.arange(start, stop, step)` for doubles (recourse/action_set.py:784). -/
def flArange (r : Rounding K) (start stop step : K) : Except Err (List K) :=
  if step = 0 then .error .value
  else .ok ((List.range (flCount r start stop step)).map (flEntry r start step))

/-- `start`, `stop` and effective `step` of `update_grid` in doubles (recourse/action_set.py:769-781). -/
def flParams (r : Rounding K) (vt : VType) (lb ub : K) (st : StepType) (s : K) : K × K × K :=
  let start := if vt = .int then (⌊lb⌋ : K) else lb
  let stop := if vt = .int then (⌈ub⌉ : K) else ub
  let step := if st = .relative then r.fl (s * r.fl (stop - start)) else s
  let step := if vt = .int then (⌈step⌉ : K) else step
  (start, stop, step)

/-- The grid computed by `update_grid` in doubles (recourse/action_set.py:765-790). -/
def flGrid (r : Rounding K) (vt : VType) (lb ub : K) (st : StepType) (s : K) : Except Err (Grid K) := do
  let p := flParams r vt lb ub st s
  let g ← flArange r p.1 (r.fl (p.2.1 + p.2.2)) p.2.2
  if vt = .int then .ok ⟨g.map trunc, true⟩ else .ok ⟨g, false⟩

/-- `update_grid()` in doubles (recourse/action_set.py:765-790). -/
def Elem.updateGridFl (r : Rounding K) (e : Elem K) : Except Err (Elem K) := do
  let g ← flGrid r e.vtype e.bounds.lb e.bounds.ub e.stepType e.stepSize
  .ok { e with grid := g }

end Recourse
