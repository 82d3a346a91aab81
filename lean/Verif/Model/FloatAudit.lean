import Verif.Model.FloatBuild

/-!
# Model of `audit` in floating point arithmetic

The functions of `Model/Auditor.lean` with the scores of the auditor and the builder computed with rounding.  `dA row` is the entry of
`U.dot(coefficients)` for a row, `dB row` what the builder gets from `coefficients.dot(x)`; the two may differ.
-/

namespace Recourse

variable {K : Type} [Field K] [LinearOrder K] [IsStrictOrderedRing K] [FloorRing K]

/-- The loop over audited rows in doubles (recourse/auditor.py:101-109). -/
def auditLoopFl (r : Rounding K) (ext : Ext K) (o : Oracle K) (dB : List K → K) :
    Builder K → List (ℕ × List K) → Builder K × Except Err (List (ℕ × AuditRow K))
  | b, [] => (b, .ok [])
  | b, (i, x) :: rest =>
      match b.setXFl r ext (dB x) x with
      | (b, .error er) => (b, .error er)
      | (b, .ok ()) =>
          match b.fit o with
          | .error er => (b, .error er)
          | .ok (b, info) =>
              match auditLoopFl r ext o dB b rest with
              | (b, .error er) => (b, .error er)
              | (b, .ok out) => (b, .ok ((i, info.row) :: out))

/-- `audit(X, y_desired)` in doubles (recourse/auditor.py:68-123). -/
def Auditor.auditFl {ι : Type} (r : Rounding K) (ext : Ext K) (o : Oracle K) (dA dB : List K → K) (ad : Auditor K) (X : List (ι × List K))
    (y : Int) : Auditor K × Except Err (List (ι × AuditRow K)) :=
  if X.isEmpty then (ad, .error .assertion)                             -- 88
  else if X.any (fun r => decide (r.2.length ≠ ad.coefs.length)) then (ad, .error .assertion) -- 89
  else if ¬ (y = 1 ∨ y = -1 ∨ y = 0) then (ad, .error .assertion)       -- 91
  else
    let U := uniqueRows (X.map (·.2))                                   -- 93
    let sel := U.zipIdx.filterMap fun p => if ad.selectedFl y (dA p.1) then some (p.2, p.1) else none
    match auditLoopFl r ext o dB ad.builder sel with
    | (b, .error er) => ({ ad with builder := b }, .error er)
    | (b, .ok out) =>
      let ad := { ad with builder := b }
      if out.isEmpty then (ad, .error .key)                             -- 114
      else
        (ad, .ok (X.map fun p =>
          (p.1, (out.lookup (U.idxOf p.2)).getD ⟨none, .nan⟩)))         -- 117-123

end Recourse
