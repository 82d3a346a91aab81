import Verif.Model.Builder

/-!
# Model of `RecourseAuditor` (recourse/auditor.py)
-/

namespace Recourse

variable {K : Type} [Field K] [LinearOrder K] [IsStrictOrderedRing K] [FloorRing K]

/-- `RecourseAuditor` (recourse/auditor.py:13-50).  The action set is the one held by the builder
(the object is shared). -/
structure Auditor (K : Type) where
  coefs : List K
  intercept : K
  builder : Builder K

/-- `RecourseAuditor.__init__` after `parse_classifier_args` (recourse/auditor.py:22-50): the action set
is always re-aligned (39), the builder uses the default cost type `max` (45-48). -/
def mkAuditor (be : Backend) (A : ActionSet K) (w : List K) (t : K) : Except Err (Auditor K) := do
  let A ← A.setAlignment w
  let b ← mkBuilder be .max A w t
  .ok ⟨w, t, b⟩

/-- One row of the audit table; `feasible = none` is NaN. -/
structure AuditRow (K : Type) where
  feasible : Option Bool
  cost : XV K
  deriving DecidableEq

/-- Lexicographic order of rows (used by `np.unique(X, axis = 0)`). -/
def lexLe : List K → List K → Bool
  | [], _ => true
  | _ :: _, [] => false
  | a :: as, b :: bs => if a < b then true else if b < a then false else lexLe as bs

/-- `np.unique(X, axis = 0)`: the distinct rows in lexicographic order (recourse/auditor.py:93). -/
def uniqueRows (X : List (List K)) : List (List K) :=
  X.dedup.insertionSort (fun r s => lexLe r s = true)

/-- Whether a distinct row is audited (recourse/auditor.py:94-99): it does not have the desired
outcome according to the sign convention of the auditor. -/
def Auditor.selected (ad : Auditor K) (y : Int) (r : List K) : Bool :=
  if 0 < y then decide (dot r ad.coefs < -ad.intercept) else decide (-ad.intercept ≤ dot r ad.coefs)

/-- The entry of `output` for a result of `fit` (recourse/auditor.py:106-108). -/
def Info.row (i : Info K) : AuditRow K := ⟨some i.feasible, i.cost⟩

/-- The loop over audited rows (recourse/auditor.py:101-109): assign `x`, `fit`, record.  The state of
the builder is returned also when an exception stops the loop. -/
def auditLoop (ext : Ext K) (o : Oracle K) :
    Builder K → List (ℕ × List K) → Builder K × Except Err (List (ℕ × AuditRow K))
  | b, [] => (b, .ok [])
  | b, (i, r) :: rest =>
      match b.setX ext r with
      | (b, .error er) => (b, .error er)
      | (b, .ok ()) =>
          match b.fit o with
          | .error er => (b, .error er)
          | .ok (b, info) =>
              match auditLoop ext o b rest with
              | (b, .error er) => (b, .error er)
              | (b, .ok out) => (b, .ok ((i, info.row) :: out))

/-- `audit(X, y_desired)` (recourse/auditor.py:68-123).  `X` is given by its rows with their index
labels (`X.index`, or `range(n)` for an array).  With no audited row the data frame is empty and
`set_index('idx')` raises `KeyError` (114).  Rows without an entry are filled with NaN by `reindex`
(117); `iloc[distinct_idx]` repeats the row of the distinct point (120). -/
def Auditor.audit {ι : Type} (ext : Ext K) (o : Oracle K) (ad : Auditor K) (X : List (ι × List K))
    (y : Int) : Auditor K × Except Err (List (ι × AuditRow K)) :=
  if X.isEmpty then (ad, .error .assertion)                             -- 88
  else if X.any (fun r => decide (r.2.length ≠ ad.coefs.length)) then (ad, .error .assertion) -- 89
  else if ¬ (y = 1 ∨ y = -1 ∨ y = 0) then (ad, .error .assertion)       -- 91
  else
    let U := uniqueRows (X.map (·.2))                                   -- 93
    let sel := U.zipIdx.filterMap fun p => if ad.selected y p.1 then some (p.2, p.1) else none
    match auditLoop ext o ad.builder sel with
    | (b, .error er) => ({ ad with builder := b }, .error er)
    | (b, .ok out) =>
      let ad := { ad with builder := b }
      if out.isEmpty then (ad, .error .key)                             -- 114
      else
        (ad, .ok (X.map fun p =>
          (p.1, (out.lookup (U.idxOf p.2)).getD ⟨none, .nan⟩)))         -- 117-123

end Recourse
