import Verif.Spec
import Mathlib.Data.Rat.Floor

/-!
# Concrete data over ℚ used in the non-vacuity examples and in the refutations
-/

namespace Recourse

/-- "The call succeeds with a result satisfying `P`" is decidable by running the call. -/
instance decOkAnd {ε α : Type} (r : Except ε α) (P : α → Prop) [DecidablePred P] :
    Decidable (∃ a, r = .ok a ∧ P a) :=
  match r with
  | .ok a => if h : P a then isTrue ⟨a, rfl, h⟩ else isFalse (by rintro ⟨b, hb, hp⟩; cases hb; exact h hp)
  | .error _ => isFalse (by rintro ⟨b, hb, -⟩; cases hb)

/-- Example externals: a constant density, a stand-in for the logarithm with `log 1 = 0`, increasing,
and a fixed set order. -/
def exExt : Ext ℚ :=
  { log := fun x => x - 1, kde := fun _ => .ok fun _ => 1, setOrder := fun l => l.dedup }

end Recourse
