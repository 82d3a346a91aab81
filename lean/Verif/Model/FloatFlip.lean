import Verif.Model.FloatBuild

/-!
# Model of `Flipset` in floating point arithmetic

The functions of `Model/Flipset.lean` that compute with numbers, with a rounding after every operation.  `dX` is what `np.dot(coefs, x)` gives, `dN a` what
`np.dot(coefs, x + a)` gives, `dB` what the builder gets from `coefficients.dot(x)`.
-/

namespace Recourse

variable {K : Type} [Field K] [LinearOrder K] [IsStrictOrderedRing K] [FloorRing K]

/-- `x + a` in doubles (recourse/flipset.py:134, 409). -/
def vaddFl (r : Rounding K) (x a : List K) : List K := List.zipWith (fun p q => r.fl (p + q)) x a

/-- `yhat` in doubles (recourse/flipset.py:123-125). -/
def Flipset.yhatFl (r : Rounding K) (fs : Flipset K) (dX : K) : K := r.fl (fs.intercept + dX)

/-- `_validate_action` in doubles (recourse/flipset.py:371-382). -/
def Flipset.validateActionFl (r : Rounding K) (dX : K) (dN : List K → K) (fs : Flipset K) : Option (List K) → Except Err (List K)
  | none => .error .assertion                                            -- 379
  | some a =>
      if a.length ≠ fs.names.length then .error .attribute               -- 378
      else do
        pyAssert (decide (1 ≤ (flatnonzero a).length))                   -- 380
        if fs.x.length ≠ a.length ∨ fs.coefs.length ≠ a.length then .error .value
        else do
          pyAssert (decide (fs.yhatFl r dX ≠ (fs.predictFl r (dN a) : K))) -- 381
          .ok a

/-- `_validate_item` in doubles (recourse/flipset.py:355-368). -/
def Flipset.validateItemFl (r : Rounding K) (dX : K) (dN : List K → K) (fs : Flipset K) (i : Info K) : Except Err (Info K) := do
  let a ← fs.validateActionFl r dX dN i.actions                          -- 365
  pyAssert i.cost.pos                                                    -- 366
  pyAssert i.feasible                                                    -- 367
  .ok { i with actions := some a }

/-- `_item_to_df_row` in doubles (recourse/flipset.py:392-415). -/
def Flipset.itemRowFl (r : Rounding K) (dX : K) (dN : List K → K) (fs : Flipset K) (label : ℕ) (i : Info K) : FlipRow K :=
  let a := i.actions.getD []
  let nz := flatnonzero a
  { label := label
    cost := i.cost
    size := nz.length
    features := nz.map fun j => fs.names.getD j ""
    featureIdx := nz
    x := nz.map fun j => fs.x.getD j 0
    xNew := nz.map fun j => r.fl (fs.x.getD j 0 + a.getD j 0)
    scoreNew := fs.scoreFl r (dN a)
    yhatNew := fs.predictFl r (dN a)
    feasible := i.feasible
    flipped := decide ((fs.predictFl r (dN a) : K) ≠ fs.yhatFl r dX) }

/-- `_add(items)` and `_add_to_df` in doubles (recourse/flipset.py:342-352, 385-389). -/
def Flipset.addFl (r : Rounding K) (dX : K) (dN : List K → K) (fs : Flipset K) (items : List (Info K)) : Except Err (Flipset K) := do
  let items ← items.mapM (fs.validateItemFl r dX dN)
  let fs' := { fs with items := fs.items ++ items }
  if items.isEmpty then .ok fs'
  else
    .ok ({ fs' with rows := relabel (fs.rows ++ items.map (fs.itemRowFl r dX dN 0)) } : Flipset K).resort

/-- `populate(total_items, enumeration_type, cost_type)` in doubles (recourse/flipset.py:141-178). -/
def Flipset.populateFl (r : Rounding K) (ext : Ext K) (o : Oracle K) (dX : K) (dN : List K → K) (dB : K) (fuel : ℕ) (fs : Flipset K)
    (total : Option ℕ) (et : EnumType) (ct : CostType) : Option (Flipset K × Except Err Unit) :=
  let made : Flipset K × Except Err (Builder K) :=
    match fs.builder with
    | some b => (fs, .ok b)
    | none =>
      match mkBuilder fs.backend ct fs.aset fs.coefs fs.intercept with
      | .error er => (fs, .error er)
      | .ok b =>
        match b.setXFl r ext dB fs.x with
        | (b, .error er) => ({ fs with aset := b.aset }, .error er)
        | (b, .ok ()) => ({ fs with aset := b.aset, builder := some b }, .ok b)
  match made with
  | (fs, .error er) => some (fs, .error er)
  | (fs, .ok b) =>
    match b.populate o et fuel total with
    | .error er => some (fs, .error er)
    | .ok none => none
    | .ok (some (b, infos)) =>
      let fs := { fs with builder := some b }
      match fs.addFl r dX dN infos with
      | .error er => some (fs, .error er)
      | .ok fs => some (fs, .ok ())

end Recourse
