import Verif.Rounding
import Verif.Model.Builder
import Verif.Model.Auditor
import Verif.Model.Flipset

/-!
# Model of scores and predictions in floating point arithmetic

numpy hands dot products to BLAS, which may add the products in any order and grouping and may or may not round a product before it
is added (fused multiply-add); which one depends on the library, the shape of the operands and the processor.  So a dot
product has many possible values here, and the functions that use one take its value as an argument.
-/

namespace Recourse

variable {K : Type} [Field K] [LinearOrder K] [IsStrictOrderedRing K] [FloorRing K]

/-- `FlSum r l s`: adding up the numbers `l` in some order, with rounding after every addition, may give `s`. -/
inductive FlSum (r : Rounding K) : List K → K → Prop
  | nil : FlSum r [] 0
  | one (x : K) : FlSum r [x] x
  | join {l l₁ l₂ : List K} {s₁ s₂ : K} (h₁ : FlSum r l₁ s₁) (h₂ : FlSum r l₂ s₂) (n₁ : l₁ ≠ []) (n₂ : l₂ ≠ [])
      (hp : l.Perm (l₁ ++ l₂)) : FlSum r l (r.fl (s₁ + s₂))

/-- `FlDot r w x s`: `w.dot(x)` may give `s` (recourse/builder.py:201, recourse/flipset.py:125, 134-136, recourse/auditor.py:94). -/
def FlDot (r : Rounding K) (w x : List K) (s : K) : Prop :=
  ∃ ts : List K, List.Forall₂ (fun t p => t = p ∨ t = r.fl p) ts (List.zipWith (· * ·) w x) ∧ FlSum r ts s

/-- `builder.score(x)` when `coefficients.dot(x)` comes out as `d` (recourse/builder.py:195-201). -/
def Builder.scoreFl (r : Rounding K) (b : Builder K) (d : K) : K := r.fl (d + b.intercept)

/-- `builder.prediction(x)` when `coefficients.dot(x)` comes out as `d` (recourse/builder.py:204-205). -/
def Builder.predictionFl (r : Rounding K) (b : Builder K) (d : K) : Int := sgn (b.scoreFl r d)

/-- Whether a row is audited when its entry of `U.dot(coefficients)` comes out as `d` (recourse/auditor.py:94-98). -/
def Auditor.selectedFl (ad : Auditor K) (y : Int) (d : K) : Bool :=
  if 0 < y then decide (d < -ad.intercept) else decide (-ad.intercept ≤ d)

/-- `flipset.score(actions)` when `np.dot(coefs, x + actions)` comes out as `d` (recourse/flipset.py:132-136). -/
def Flipset.scoreFl (r : Rounding K) (fs : Flipset K) (d : K) : K := r.fl (fs.intercept + d)

/-- `flipset.predict(actions)` when `np.dot(coefs, x + actions)` comes out as `d` (recourse/flipset.py:128-129). -/
def Flipset.predictFl (r : Rounding K) (fs : Flipset K) (d : K) : Int := sgn (fs.scoreFl r d)

end Recourse
