import Verif.Examples
import Verif.Model.Classifier

/-!
# C21: ways of passing a classifier
-/

namespace Recourse

variable {K : Type} [Zero K]

/-- A binary linear scikit-learn classifier with coefficients `rows` (any shape) and intercept `t`. -/
def sklearnClf (rows : List (List K)) (t : K) : Clf K :=
  { nClasses := some 2, coef := some rows, intercept := some [t] }

/-- **C21.**  All five ways of passing the same numbers give the same `(w, t)`, whatever positional
arguments come with a keyword; a missing intercept is 0; `clf` has precedence over `classifier`, which
has precedence over `coefficients`; and nothing but a binary linear classifier is taken for one. -/
theorem C21_classifier_args (rows : List (List K)) (t : K) :
    -- the same answer for the five spellings
    (∀ args cl co i, parseClassifierArgs args
        { clf := some (sklearnClf rows t), classifier := cl, coefficients := co, intercept := i }
      = .ok (rows.flatten, t)) ∧
    (∀ args co i, parseClassifierArgs args
        { classifier := some (sklearnClf rows t), coefficients := co, intercept := i }
      = .ok (rows.flatten, t)) ∧
    (∀ args, parseClassifierArgs args { coefficients := some rows.flatten, intercept := some [t] }
      = .ok (rows.flatten, t)) ∧
    (parseClassifierArgs [.clf (sklearnClf rows t)] {} = .ok (rows.flatten, t)) ∧
    (parseClassifierArgs [.vec rows.flatten, .num t] {} = .ok (rows.flatten, t)) ∧
    -- the default intercept
    (∀ args, parseClassifierArgs args { coefficients := some rows.flatten } = .ok (rows.flatten, 0)) ∧
    (parseClassifierArgs [.vec rows.flatten] {} = .ok (rows.flatten, (0 : K))) ∧
    -- other classifiers are rejected
    (∀ (c : Clf K) (args : List (ClfArg K)) (kw : ClfKwargs K), c.nClasses ≠ some 2 ∨ c.coef = none ∨ c.intercept = none →
      parseClassifierArgs args { kw with clf := some c } = .error .assertion ∧
      parseClassifierArgs args { kw with clf := none, classifier := some c } = .error .assertion ∧
      parseClassifierArgs [.clf c] {} = .error .type) := by
  refine ⟨fun _ _ _ _ => rfl, fun _ _ _ => rfl, fun _ => rfl, rfl, rfl, fun _ => rfl, rfl, ?_⟩
  intro c args kw h
  have hl : c.isLinear = false := by
    unfold Clf.isLinear
    rcases h with h | h | h
    · simp [h]
    · simp [h]
    · simp [h]
  simp [parseClassifierArgs, hl]

/-- Conversely, whatever is accepted is what was passed: the result is made of the numbers of the
argument with the highest precedence. -/
theorem C21_accepted_is_passed {args : List (ClfArg K)} {kw : ClfKwargs K} {w : List K} {t : K}
    (h : parseClassifierArgs args kw = .ok (w, t)) :
    (∃ c rows, (kw.clf = some c ∨ (kw.clf = none ∧ kw.classifier = some c) ∨
        (kw.clf = none ∧ kw.classifier = none ∧ kw.coefficients = none ∧ args = [.clf c])) ∧
      c.nClasses = some 2 ∧ c.coef = some rows ∧ w = rows.flatten ∧ c.intercept = some [t]) ∨
    (kw.clf = none ∧ kw.classifier = none ∧ kw.coefficients = some w ∧
      (kw.intercept = some [t] ∨ (kw.intercept = none ∧ t = 0))) ∨
    (kw.clf = none ∧ kw.classifier = none ∧ kw.coefficients = none ∧
      ((args = [.vec w] ∧ t = 0) ∨
       ∃ a b, args = [a, b] ∧ a.asVec = some w ∧ b.asVec = some [t])) := by
  have clfcase : ∀ {c : Clf K}, c.isLinear = true → c.unpack = .ok (w, t) → 
      ∃ rows, c.nClasses = some 2 ∧ c.coef = some rows ∧ w = rows.flatten ∧ c.intercept = some [t] := by
    intro c hl hu
    obtain ⟨n, co, i⟩ := c
    unfold Clf.isLinear at hl
    simp only [Bool.and_eq_true, beq_iff_eq] at hl
    cases co with
    | none => simp at hl
    | some rows =>
      cases i with
      | none => simp at hl
      | some i =>
        match i, hu with
        | [t'], hu =>
          simp only [Clf.unpack, pyFloat] at hu
          cases hu
          exact ⟨rows, hl.1, rfl, rfl, rfl⟩
  obtain ⟨kc, kcl, kco, ki⟩ := kw
  unfold parseClassifierArgs at h
  cases kc with
  | some c =>
    left
    by_cases hl : c.isLinear = true
    · simp only [hl, if_true] at h
      obtain ⟨r, h1⟩ := clfcase hl h
      exact ⟨c, r, Or.inl rfl, h1⟩
    · simp [hl] at h
  | none =>
    cases kcl with
    | some c =>
      left
      by_cases hl : c.isLinear = true
      · simp only [hl, if_true] at h
        obtain ⟨r, h1⟩ := clfcase hl h
        exact ⟨c, r, Or.inr (Or.inl ⟨rfl, rfl⟩), h1⟩
      · simp [hl] at h
    | none =>
      cases kco with
      | some w' =>
        right; left
        cases ki with
        | none => cases h; exact ⟨rfl, rfl, rfl, Or.inr ⟨rfl, rfl⟩⟩
        | some i =>
          match i, h with
          | [t'], h => cases h; exact ⟨rfl, rfl, rfl, Or.inl rfl⟩
      | none =>
        match args, h with
        | [.clf c], h =>
          left
          by_cases hl : c.isLinear = true
          · simp only [hl, if_true] at h
            obtain ⟨r, h1⟩ := clfcase hl h
            exact ⟨c, r, Or.inr (Or.inr ⟨rfl, rfl, rfl, rfl⟩), h1⟩
          · simp [hl] at h
        | [.vec w'], h => cases h; exact Or.inr (Or.inr ⟨rfl, rfl, rfl, Or.inl ⟨rfl, rfl⟩⟩)
        | [a, b], h =>
          right; right
          refine ⟨rfl, rfl, rfl, Or.inr ⟨a, b, rfl, ?_⟩⟩
          cases ha : a.asVec with
          | none => simp [ha] at h
          | some w' =>
            cases hb : b.asVec with
            | none => simp [ha, hb] at h
            | some t' =>
              match t', hb, h with
              | [t''], hb, h =>
                simp only [ha, hb, pyFloat] at h
                cases h; exact ⟨rfl, rfl⟩
              | [], hb, h => simp only [ha, hb, pyFloat] at h; cases h
              | _ :: _ :: _, hb, h => simp only [ha, hb, pyFloat] at h; cases h

/-- Non-vacuity: a two-feature classifier passed in three ways. -/
example : parseClassifierArgs [] { clf := some (sklearnClf [[(1 : ℚ), -2]] 3) } = .ok ([1, -2], 3) ∧
    parseClassifierArgs [.vec [1, -2], .num 3] {} = .ok ([(1 : ℚ), -2], 3) ∧
    parseClassifierArgs [.vec [1, -2]] {} = .ok ([(1 : ℚ), -2], 0) := ⟨rfl, rfl, rfl⟩

end Recourse
