import Verif.Model.FloatBuild

/-!
# Model of the percentile tables in floating point arithmetic

`update_interpolator` and the evaluation of its `interp1d` object with a rounding after every operation.  With `Rounding.exact` they are
`Elem.newTable` and `Table.eval` (Props/FloatPercentile.lean).  The density estimate itself is a parameter: the values it returns
are rounded, and nothing else is assumed of how they were computed.
-/

namespace Recourse

variable {K : Type} [Field K] [LinearOrder K] [IsStrictOrderedRing K] [FloorRing K]

/-- `np.cumsum` with a rounded running total (recourse/action_set.py:814). -/
def cumsumFromFl (r : Rounding K) (acc : K) : List K → List K
  | [] => []
  | p :: ps => r.fl (acc + p) :: cumsumFromFl r (r.fl (acc + p)) ps

/-- The table built by `update_interpolator(left_buffer, right_buffer)` in doubles (recourse/action_set.py:801-817). -/
def Elem.newTableFl (r : Rounding K) (ext : Ext K) (e : Elem K) (left right : K) : Except Err (Table K) := do
  pyAssert (decide (0 ≤ left ∧ left < 1))                                                -- 805
  pyAssert (decide (0 ≤ right ∧ right < 1))                                              -- 806
  pyAssert (decide (r.fl (left + right) < 1))                                            -- 807
  let pdf ← ext.kde e.values                                                             -- 810
  let raw := cumsumFromFl r 0 (e.grid.vals.map fun v => r.fl (pdf v))                    -- 813-814
  let total := r.fl (r.fl (raw.getLastD 0 + left) + right)                               -- 815
  .ok { xs := e.grid.vals, ys := raw.map fun c => r.fl (r.fl (left + c) / total),        -- 816-817
        lo := left, hi := r.fl (1 - right) }

/-- The table built by `update_interpolator()` in doubles, with its default buffers (recourse/action_set.py:801). -/
def Elem.freshTableFl (r : Rounding K) (ext : Ext K) (e : Elem K) : Except Err (Table K) :=
  e.newTableFl r ext (r.fl pbuf) (r.fl pbuf)

/-- Linear segments as `np.interp` computes them, which `interp1d` uses for grids of floats: the segment whose left end is the last grid
value `≤ x` (recourse/action_set.py:817, 821). -/
def interpNpFl (r : Rounding K) : List K → List K → K → K
  | g0 :: g1 :: gs, y0 :: y1 :: ys, x =>
      if x < g1 then r.fl (r.fl (r.fl (r.fl (y1 - y0) / r.fl (g1 - g0)) * r.fl (x - g0)) + y0)
      else interpNpFl r (g1 :: gs) (y1 :: ys) x
  | _, y0 :: _, _ => y0
  | _, [], _ => 0

/-- Linear segments as `interp1d._call_linear` computes them, which `interp1d` uses for grids of integers: the first segment whose
right end is `≥ x` (recourse/action_set.py:817, 821). -/
def interpSciFl (r : Rounding K) : List K → List K → K → K
  | g0 :: g1 :: gs, y0 :: y1 :: ys, x =>
      if x ≤ g1 then r.fl (r.fl (r.fl (r.fl (y1 - y0) / r.fl (g1 - g0)) * r.fl (x - g0)) + y0)
      else interpSciFl r (g1 :: gs) (y1 :: ys) x
  | _, y0 :: _, _ => y0
  | _, [], _ => 0

/-- Evaluation of the `interp1d` object in doubles (recourse/action_set.py:817, 820-821); `isInt` tells whether the grid is an array
of integers. -/
def Table.evalFl (r : Rounding K) (isInt : Bool) (t : Table K) (x : K) : K :=
  if x < t.xs.headD 0 then t.lo
  else if t.xs.getLastD 0 < x then t.hi
  else if isInt then interpSciFl r t.xs t.ys x
  else interpNpFl r t.xs t.ys x

/-- The percentile part of `feasible_values(..., return_percentiles = True)` in doubles (recourse/action_set.py:875-876), for an
element whose interpolator is not cached. -/
def Elem.feasiblePercentilesFl (r : Rounding K) (ext : Ext K) (e : Elem K) (x : K) (drop : Bool) : Except Err (List K) := do
  let t ← e.freshTableFl r ext
  .ok ((e.feasX x drop).map (t.evalFl r e.grid.isInt))

/-- One feature of `feasible_grid(x, return_percentiles = True)` in doubles (recourse/action_set.py:293-296), for an element whose
interpolator is not cached; the actions are rounded in `mkFeatFl`. -/
def gridEntryFl (r : Rounding K) (ext : Ext K) (n : String) (e : Elem K) (xj : K) (drop : Bool) : Except Err (GridEntry K) := do
  let acts ← e.feasibleValues xj true drop
  let pcts ← e.feasiblePercentilesFl r ext xj drop
  .ok { name := n, acts := acts, pcts := pcts }

end Recourse
