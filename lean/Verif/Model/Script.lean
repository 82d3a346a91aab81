import Verif.Model.ActionSet

/-!
# Model of customisation scripts: the lines `A[...].attr = value` and `A[name].update_grid()` of the documented usage
(README.md:74-90)
-/

namespace Recourse

variable {K : Type} [Field K] [LinearOrder K] [IsStrictOrderedRing K] [FloorRing K]

/-- A statement that customises a set (README.md:74-87): `A[name].attr = value`, `A[[names]].attr = value`
(recourse/action_set.py:112-125, 1026-1033), or `A[name].update_grid()` (recourse/action_set.py:765-790). -/
inductive Line (K : Type)
  | one (n attr : String) (v : PyVal K)
  | many (ns : List String) (attr : String) (v : PyVal K)
  | grid (n : String)

/-- `A[name].update_grid()` (recourse/action_set.py:114-115, 765-790). -/
def ActionSet.updateGridOf (A : ActionSet K) (n : String) : ActionSet K × Except Err Unit :=
  match A.elem? n with
  | none => (A, .error .key)
  | some e =>
      match e.updateGrid with
      | .ok e' => ({ A with elems := A.elems.set (A.names.idxOf n) e' }, .ok ())
      | .error er => (A, .error er)

/-- One statement (recourse/action_set.py:112-132, 765-790, 1026-1033). -/
def runLine (A : ActionSet K) : Line K → ActionSet K × Except Err Unit
  | .one n attr v => A.setElemAttr n attr v
  | .many ns attr v => A.setSliceAttr (.list (ns.map .str)) attr v
  | .grid n => A.updateGridOf n

/-- A script (README.md:74-87): Python runs the statements in order and stops at the first exception. -/
def runLines (A : ActionSet K) : List (Line K) → ActionSet K × Except Err Unit
  | [] => (A, .ok ())
  | l :: ls =>
      match runLine A l with
      | (A', .ok ()) => runLines A' ls
      | (A', .error er) => (A', .error er)

/-- The customisation of the README (README.md:74-87) with a given attribute name for immutability (the README
writes `mutable`). -/
def readmeLines (attr : String) : List (Line K) :=
  [.one "Married" attr (.bool false),
   .many ["Age_lt_25", "Age_in_25_to_40", "Age_in_40_to_59", "Age_geq_60"] attr (.bool false),
   .one "EducationLevel" "step_direction" (.int 1),
   .one "EducationLevel" "step_size" (.int 1),
   .one "EducationLevel" "step_type" (.str "absolute"),
   .one "EducationLevel" "bounds" (.tuple [.int 0, .int 3]),
   .one "TotalMonthsOverdue" "step_size" (.int 1),
   .one "TotalMonthsOverdue" "step_type" (.str "absolute"),
   .one "TotalMonthsOverdue" "bounds" (.tuple [.int 0, .int 100])]

end Recourse
