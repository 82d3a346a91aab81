import Verif.Model.FloatScore

/-!
# Model of the build step in floating point arithmetic

The functions of `Model/Builder.lean` that compute with numbers of the user, with a rounding after every operation.  With
`Rounding.exact` they are the functions of `Model/Builder.lean` (Props/FloatBuild.lean).  Not rounded: the values of the percentile
interpolators (they are parameters of the model in any case), and the weight of the tie-breaking term in the objective for cost type `max`.
-/

namespace Recourse

variable {K : Type} [Field K] [LinearOrder K] [IsStrictOrderedRing K] [FloorRing K]

/-- `cost_up` in doubles (recourse/builder.py:346-351). -/
def costUpFl (r : Rounding K) (ext : Ext K) (ct : CostType) (c : List K) : List K :=
  let c0 := c.headD 0
  if ct = .loc then c.map fun p => r.fl (ext.log (r.fl (r.fl (1 - c0) / r.fl (1 - p)))) else c.map fun p => r.fl (p - c0)

/-- `cost_dn` in doubles (recourse/builder.py:346-351). -/
def costDnFl (r : Rounding K) (ext : Ext K) (ct : CostType) (c : List K) : List K :=
  let c0 := c.headD 0
  if ct = .loc then c.map fun p => r.fl (ext.log (r.fl (r.fl (1 - p) / r.fl (1 - c0)))) else c.map fun p => r.fl (c0 - p)

/-- Orientation of the action grid in doubles (recourse/builder.py:360-366). -/
def orientFl (r : Rounding K) (ext : Ext K) (ct : CostType) (a p : List K) : List K × List K :=
  if isClose (a.getLastD 0) 0 then (a.reverse, costDnFl r ext ct p.reverse) else (a, costUpFl r ext ct p)

/-- The body of the loop over features in doubles (recourse/builder.py:356-418); the actions `x_new - x` are rounded
(recourse/action_set.py:871). -/
def mkFeatFl (r : Rounding K) (ext : Ext K) (b : Builder K) (x : List K) (constrained : List String)
    (g : GridEntry K) : Except Err (Feat K) := do
  let (a, c) := orientFl r ext b.costType (g.acts.map r.fl) g.pcts
  let some ac := dropBugs (a.zip c) | .error .index                      -- 371
  let a := ac.map (·.1)
  let c := ac.map (·.2)
  if g.name ∉ b.varNames then .error .key else                           -- 376
  let idx := b.varNames.idxOf g.name
  let some w := b.coefs[idx]? | .error .index                            -- 377
  let some xj := x[idx]? | .error .index                                 -- 385
  let kNull ← if g.name ∈ constrained ∧ 0 < xj then nullIndex a xj else .ok 0  -- 386-389
  if (npDiff c).isEmpty then .error .value else                          -- 418
  .ok { name := g.name, idx := idx, coef := w, actions := a, costs := c, kNull := kNull }

/-- `_get_mip_build_info()` in doubles (recourse/builder.py:335-424). -/
def Builder.buildInfoFl (r : Rounding K) (ext : Ext K) (b : Builder K) (x : List K) : Except Err (List (Feat K)) := do
  let constrained := b.aset.cons.flatNames                               -- 343
  let grid ← b.aset.feasibleGrid ext x true true                         -- 354
  let feats ← (grid.filter fun g => decide (2 ≤ g.acts.length)).mapM (mkFeatFl r ext b x constrained)
  pyAssert (feats.all (checkFeat b.aset.yDesired constrained))           -- 421-422
  .ok feats

/-- `x` setter in doubles (recourse/builder.py:176-182) when `coefficients.dot(x)` comes out as `d`. -/
def Builder.setXFl (r : Rounding K) (ext : Ext K) (d : K) (b : Builder K) (x : List K) : Builder K × Except Err Unit :=
  if x.length ≠ b.coefs.length then (b, .error .assertion)               -- 180
  else
    let b := { b with x := some x }                                      -- 181
    match b.buildInfoFl r ext x with
    | .error er => ({ b with aset := b.aset.visit ext (b.aset.visitOrder ext) }, .error er)
    | .ok feats =>
      let b := { b with aset := b.aset.touch ext true }
      match buildMip b.backend { b.buildArgs x feats with score := b.scoreFl r d } with
      | .error er => (b, .error er)
      | .ok m => ({ b with mip := some m, feats := feats, sol := .unknown }, .ok ())

end Recourse
