import Verif.Props.Use
import Verif.Props.Reads
import Verif.Props.Enum
import Verif.Props.FlipEx

/-!
# Replacing a feature of an action set: `A[name] = e` (C85)
-/

set_option linter.unusedSectionVars false

namespace Recourse

variable {K : Type} [Field K] [LinearOrder K] [IsStrictOrderedRing K] [FloorRing K]
  {ext : Ext K} {be : Backend} {ct : CostType} {A A' : ActionSet K} {w x : List K} {t : K} {b : Builder K}

/-- **C85**, the assignment: it succeeds exactly for an element and the name of a feature, otherwise it raises and
changes nothing.  Afterwards the feature is the new element; the other features, the names, the desired outcome, the
constraints and all plain attributes are as before. -/
theorem C85_item (hA : A.Reachable ext) (n : String) (v : Option (Elem K)) :
    (v = none ∨ n ∉ A.names → A.setItem n v = (A, .error .assertion)) ∧
    (∀ e, v = some e → n ∈ A.names → ∃ A', A.setItem n v = (A', .ok ()) ∧ A'.elem? n = some e ∧
      (∀ m, m ≠ n → A'.elem? m = A.elem? m) ∧ A'.names = A.names ∧ A'.elems.length = A.elems.length ∧
      A'.yDesired = A.yDesired ∧ A'.cons = A.cons ∧ A'.extra = A.extra) := by
  constructor
  · rintro (rfl | h)
    · rfl
    · cases v with
      | none => rfl
      | some e => unfold ActionSet.setItem; dsimp only; rw [if_neg h]
  · rintro e rfl hn
    unfold ActionSet.setItem
    dsimp only
    rw [if_pos hn]
    have hl := hA.wf.length
    have hi : A.names.idxOf n < A.elems.length := by rw [hl]; exact List.idxOf_lt_length_of_mem hn
    refine ⟨_, rfl, ?_, fun m hm => ?_, rfl, by simp, rfl, rfl, rfl⟩
    · unfold ActionSet.elem?
      dsimp only
      rw [if_pos hn, List.getElem?_set_self hi]
    · unfold ActionSet.elem?
      dsimp only
      by_cases hmn : m ∈ A.names
      · rw [if_pos hmn, if_pos hmn, List.getElem?_set_ne]
        intro hh
        exact hm ((List.idxOf_inj hn).mp hh).symm
      · rw [if_neg hmn, if_neg hmn]

/-- **C85**: of two assignments to the same feature the last one counts, assignments to different features
commute, and putting back the feature that is there changes nothing. -/
theorem C85_order (n m : String) (e f : Elem K) :
    (A.setItem n (some e)).1.setItem n (some f) = A.setItem n (some f) ∧
    (m ≠ n → ((A.setItem n (some e)).1.setItem m (some f)).1 = ((A.setItem m (some f)).1.setItem n (some e)).1) ∧
    (A.elem? n = some e → A.setItem n (some e) = (A, .ok ())) := by
  refine ⟨?_, fun hmn => ?_, fun h => ?_⟩
  · by_cases hn : n ∈ A.names
    · simp only [ActionSet.setItem, if_pos hn, List.set_set]
    · simp only [ActionSet.setItem, if_neg hn]
  · by_cases hn : n ∈ A.names <;> by_cases hm : m ∈ A.names
    · simp only [ActionSet.setItem, if_pos hn, if_pos hm]
      rw [List.set_comm]
      intro hh
      exact hmn ((List.idxOf_inj hn).mp hh).symm
    · simp only [ActionSet.setItem, if_pos hn, if_neg hm]
    · simp only [ActionSet.setItem, if_neg hn, if_pos hm]
    · simp only [ActionSet.setItem, if_neg hn, if_neg hm]
  · unfold ActionSet.elem? at h
    by_cases hn : n ∈ A.names
    · rw [if_pos hn] at h
      simp only [ActionSet.setItem, if_pos hn]
      obtain ⟨hl, hg⟩ := List.getElem?_eq_some_iff.mp h
      rw [← hg, List.set_getElem_self]
    · rw [if_neg hn] at h; cases h

/-- An element that has just been made is not aligned. -/
theorem mkElem_unaligned {name : String} {values : List K} {bounds : PyVal K} {vt : Option VType} {act : Bool}
    {st : PyVal K} {sd : K} {ss : PyVal K} {e : Elem K} (h : mkElem name values bounds vt act st sd ss = .ok e) :
    e.aligned = false := by
  obtain ⟨-, -, -, -, -, -, -, -, hfl, -⟩ := mkElem_spec h
  unfold Elem.aligned; rw [hfl]; rfl

/-- A set with a feature that is not aligned. -/
theorem alignment_unknown {j : ℕ} {e : Elem K} (he : A.elems[j]? = some e) (hu : e.aligned = false) :
    A.alignmentKnown = false := by
  unfold ActionSet.alignmentKnown
  rw [List.all_eq_false]
  exact ⟨e, List.mem_of_getElem? he, by rw [hu]; simp⟩

theorem elem?_pos {n : String} {e : Elem K} (h : A.elem? n = some e) :
    ∃ j : ℕ, A.names[j]? = some n ∧ A.elems[j]? = some e := by
  unfold ActionSet.elem? at h
  by_cases hn : n ∈ A.names
  · rw [if_pos hn] at h
    exact ⟨_, by rw [List.getElem?_eq_getElem (List.idxOf_lt_length_of_mem hn), List.getElem_idxOf], h⟩
  · rw [if_neg hn] at h; cases h

/-- **C85**, new elements and new builders: when a feature has been replaced by a new element (which is not aligned), the next
builder aligns all features of the set with its classifier, whatever was done to the set in between, as long as
that element has not been aligned. -/
theorem C85_new_builder (hA : A.Reachable ext) {n : String} {e : Elem K} (he : A.elem? n = some e)
    (hu : e.aligned = false) (hb : mkBuilder be ct A w t = .ok b) :
    ∀ (j : ℕ) (e' : Elem K) (c : K), b.aset.elems[j]? = some e' → w[j]? = some c →
      e'.flip = some (A.yDesired * sgn c) := by
  obtain ⟨i, -, hi⟩ := elem?_pos he
  have h3 := mkBuilder_aligned hb
  unfold AlignedWith at h3
  rw [if_neg (by rw [alignment_unknown hi hu]; simp)] at h3
  obtain ⟨A2, k1, -, k0, k3, -⟩ := (C12_alignment hA w).1 (setAlignment_ok h3).1
  rw [h3] at k1
  rw [Except.ok.inj k1]
  intro j e' c he' hc
  have hj : j < A.elems.length := by
    have := (List.getElem?_eq_some_iff.mp he').1
    rw [k0] at this; exact this
  rw [k3 j _ c (List.getElem?_eq_getElem hj) hc] at he'
  rw [← Option.some.inj he']

/-- **C85**, builders that already exist: while the set has a feature that is not aligned, they reject every point. -/
theorem C85_old_builder (hb : b.Reachable ext) {n : String} {e : Elem K} (he : b.aset.elem? n = some e)
    (hu : e.aligned = false) (x : List K) : ∃ er, (b.setX ext x).2 = .error er := by
  rcases hh : b.setX ext x with ⟨b1, er | u⟩
  · exact ⟨er, rfl⟩
  exfalso
  obtain ⟨feats, m, -, hbi, -, -⟩ := setX_ok hh
  unfold Builder.buildInfo at hbi
  simp only [bind_ok_iff] at hbi
  obtain ⟨grid, hg, -⟩ := hbi
  unfold ActionSet.feasibleGrid at hg
  simp only [bind_ok_iff, pyAssert_ok_iff, decide_eq_true_eq] at hg
  obtain ⟨-, hl, out, ho, -⟩ := hg
  obtain ⟨j, hj1, hj2⟩ := elem?_pos he
  have hjx : j < x.length := by rw [hl]; exact (List.getElem?_eq_some_iff.mp hj1).1
  have hmem : (n, e, x[j]) ∈ (b.aset.cols x).filter fun p => !true || p.2.1.compatTruthy := by
    rw [List.mem_filter]
    constructor
    · apply List.mem_of_getElem? (i := j)
      unfold ActionSet.cols
      rw [List.getElem?_zip_eq_some]
      exact ⟨hj1, List.getElem?_zip_eq_some.mpr ⟨hj2, List.getElem?_eq_getElem hjx⟩⟩
    · unfold Elem.aligned at hu
      unfold Elem.compatTruthy Elem.compatible
      rw [Option.isSome_eq_false_iff, Option.isNone_iff_eq_none] at hu
      dsimp only
      rw [hu]; rfl
  have hf := mapM_ok_iff.mp ho
  obtain ⟨k, hk⟩ := List.mem_iff_getElem?.mp hmem
  obtain ⟨hk1, hk2⟩ := List.getElem?_eq_some_iff.mp hk
  have := hf.get hk1 (by rw [← hf.length_eq]; exact hk1)
  rw [List.get_eq_getElem, hk2] at this
  unfold gridEntry Elem.feasibleValues at this
  simp only [bind_ok_iff, pyAssert_ok_iff, hu] at this
  obtain ⟨-, ⟨-, h, -⟩, -⟩ := this
  simp at h

/-- For concrete evaluation. -/
instance decSomeAnd {α : Type} (r : Option α) (P : α → Prop) [DecidablePred P] : Decidable (∃ a, r = some a ∧ P a) :=
  match r with
  | some a => if h : P a then isTrue ⟨a, rfl, h⟩ else isFalse (by rintro ⟨b, hb, hp⟩; cases hb; exact h hp)
  | none => isFalse (by rintro ⟨b, hb, -⟩; cases hb)

/-- Nothing but the type and the key is checked, so a set need not file its features under their own names: the set with the
features `a` and `b` accepts its feature `b` as `a`; then `A["a"].name` is `b`, and builders for the set raise `KeyError`
when a point is assigned. -/
theorem C85_names_refuted (be : Backend) (ct : CostType) : ∃ A : ActionSet ℚ, A.Reachable exExt ∧ A.names = ["a", "b"] ∧
    ∃ e, A.elem? "b" = some e ∧ ∃ A', A.setItem "a" (some e) = (A', .ok ()) ∧
      A'.names = ["a", "b"] ∧ A'.getElemAttr "a" "name" = .ok (.str "b") ∧
      ∃ b, mkBuilder be ct A' [2, 1] (-2) = .ok b ∧ (b.setX exExt [0, 0]).2 = .error .key := by
  have key : ∀ be ct, ∃ A : ActionSet ℚ, exSet [[0, 0], [1, 1]] ["a", "b"] = .ok A ∧ A.names = ["a", "b"] ∧
      ∃ e, A.elem? "b" = some e ∧ e.name = "b" ∧ ∃ b, mkBuilder be ct (A.setItem "a" (some e)).1 [2, 1] (-2) = .ok b ∧
        (b.setX exExt [0, 0]).2 = .error .key := by
    intro be ct; cases be <;> cases ct <;> decide +kernel
  obtain ⟨A, h1, h2, e, h3, h4, b, h5, h6⟩ := key be ct
  have hA : A.Reachable exExt := .mk h1
  obtain ⟨A', q1, q2, -, q3, -⟩ := (C85_item hA "a" (some e)).2 e rfl (by rw [h2]; simp)
  rw [q1] at h5
  refine ⟨A, hA, h2, e, h3, A', q1, q3.trans h2, ?_, b, h5, h6⟩
  unfold ActionSet.getElemAttr
  rw [q2]
  simp [Elem.getAttr, h4]

set_option synthInstance.maxHeartbeats 400000 in
set_option synthInstance.maxSize 4000 in
/-- Elements that are aligned already: a set is aligned with the classifier `(2, 1)`, one feature is replaced by the same feature
from a set aligned with `(-2, 1)`.  A new builder for `(2, 1)` takes the set as aligned, and every exact solver reports that there
is no recourse at `(0, 0)`; after `set_alignment` there is. -/
theorem C85_aligned_refuted (be : Backend) (ct : CostType) : ∃ A B : ActionSet ℚ, A.Reachable exExt ∧
    B.Reachable exExt ∧ A.alignmentKnown = true ∧ ∃ e, B.elem? "a" = some e ∧ e.name = "a" ∧
    ∃ A', A.setItem "a" (some e) = (A', .ok ()) ∧ A'.Reachable exExt ∧
    ∃ b b1, mkBuilder be ct A' [2, 1] (-2) = .ok b ∧ b.setX exExt [0, 0] = (b1, .ok ()) ∧
    ∃ A'' d d1, A'.setAlignment [2, 1] = .ok A'' ∧ mkBuilder be ct A'' [2, 1] (-2) = .ok d ∧
      d.setX exExt [0, 0] = (d1, .ok ()) ∧
      ∀ o : Oracle ℚ, o.Exact → (∃ b' i, b1.fit o = .ok (b', i) ∧ i.feasible = false) ∧
        ∃ d' i, d1.fit o = .ok (d', i) ∧ i.feasible = true := by
  have key : ∀ be ct, ∃ A0 : ActionSet ℚ, exSet [[0, 0], [1, 1]] ["a", "b"] = .ok A0 ∧
      ∃ A, A0.setAlignment [2, 1] = .ok A ∧ A.alignmentKnown = true ∧
      ∃ B, A0.setAlignment [-2, 1] = .ok B ∧
      ∃ e, B.elem? "a" = some e ∧ e.name = "a" ∧ (A.setItem "a" (some e)).2 = .ok () ∧
      ∃ b, mkBuilder be ct (A.setItem "a" (some e)).1 [2, 1] (-2) = .ok b ∧
        (b.setX exExt [0, 0]).2 = .ok () ∧
        admitted (b.buildArgs [0, 0] (b.setX exExt [0, 0]).1.feats) (fun _ => true) = [] ∧
      ∃ A'', (A.setItem "a" (some e)).1.setAlignment [2, 1] = .ok A'' ∧
      ∃ d, mkBuilder be ct A'' [2, 1] (-2) = .ok d ∧
        (d.setX exExt [0, 0]).2 = .ok () ∧
        admitted (d.buildArgs [0, 0] (d.setX exExt [0, 0]).1.feats) (fun _ => true) ≠ [] := by
    intro be ct; cases be <;> cases ct <;> decide +kernel
  obtain ⟨A0, h0, A, h1, h2, B, h3, e, h4, h5, h6, b, h7, h8, h9, A'', h10, d, h11, h12, h13⟩ := key be ct
  have hA0 : A0.Reachable exExt := .mk h0
  have hA : A.Reachable exExt := .align hA0 h1
  have hB : B.Reachable exExt := .align hA0 h3
  have he : e.Reachable exExt := by
    obtain ⟨j, -, hj⟩ := elem?_pos h4
    exact hB.wf.elems e (List.mem_of_getElem? hj)
  have hA' : (A.setItem "a" (some e)).1.Reachable exExt := .setItem "a" hA he h5
  have hA'' : A''.Reachable exExt := .align hA' h10
  refine ⟨A, B, hA, hB, h2, e, h4, h5, _, Prod.ext rfl h6, hA', b, _, h7, Prod.ext rfl h8, A'', d, _, h10, h11,
    Prod.ext rfl h12, fun o ho => ⟨?_, ?_⟩⟩
  · obtain ⟨b1', feats, g1, -, g2, b', i, g3, g4⟩ := exSolve exExt_order (.mk hA' h7) h8 ho
    rw [g1]
    refine ⟨b', i, g3, ?_⟩
    rcases g4 with ⟨-, rfl⟩ | ⟨κ, hκ, -, hf, -⟩
    · rfl
    · unfold optChoices at hκ
      rw [g2] at h9
      rw [h9] at hκ
      simp at hκ
  · obtain ⟨b1', feats, g1, -, g2, b', i, g3, g4⟩ := exSolve exExt_order (.mk hA'' h11) h12 ho
    rw [g1]
    refine ⟨b', i, g3, ?_⟩
    rcases g4 with ⟨h, -⟩ | ⟨κ, -, -, hf, -⟩
    · rw [g2] at h13; exact absurd h h13
    · exact hf

/-- Non-vacuity of `C85_new_builder` and `C85_old_builder`: a builder has aligned a set with two features; one of them
is replaced by a new element made from other data.  The builder then rejects points; a new builder accepts them. -/
theorem C85_example (be : Backend) (ct : CostType) : ∃ (b : Builder ℚ) (e : Elem ℚ),
    b.Reachable exExt ∧ b.aset.alignmentKnown = true ∧ e.Reachable exExt ∧ e.name = "a" ∧ e.aligned = false ∧
    (b.setX exExt [0, 0]).2 = .ok () ∧
    ∃ A', b.aset.setItem "a" (some e) = (A', .ok ()) ∧ A'.Reachable exExt ∧ A'.elem? "a" = some e ∧
      Builder.Reachable exExt { b with aset := A' } ∧
      (({ b with aset := A' } : Builder ℚ).setX exExt [0, 0]).2 = .error .assertion ∧
      ∃ d, mkBuilder be ct A' [2, 1] (-2) = .ok d ∧ (d.setX exExt [0, 0]).2 = .ok () := by
  have key : ∀ be ct, ∃ A : ActionSet ℚ, exSet [[0, 0], [1, 1]] ["a", "b"] = .ok A ∧
      ∃ b, mkBuilder be ct A [2, 1] (-2) = .ok b ∧ b.aset.alignmentKnown = true ∧ (b.setX exExt [0, 0]).2 = .ok () ∧
      ∃ e : Elem ℚ, mkElem "a" [0, 2, 1] (.tuple [.int 0, .int 2, .str "absolute"]) (some .int) true
        (.str "absolute") 0 (.int 1) = .ok e ∧ e.name = "a" ∧ (b.aset.setItem "a" (some e)).2 = .ok () ∧
      (b.aset.setItem "a" (some e)).1.names = b.aset.names ∧
      (({ b with aset := (b.aset.setItem "a" (some e)).1 } : Builder ℚ).setX exExt [0, 0]).2 = .error .assertion ∧
      ∃ d, mkBuilder be ct (b.aset.setItem "a" (some e)).1 [2, 1] (-2) = .ok d ∧ (d.setX exExt [0, 0]).2 = .ok () := by
    intro be ct; cases be <;> cases ct <;> decide +kernel
  obtain ⟨A, h1, b, h2, h3, h4, e, h5, h6, h7, h8, h9, d, h10, h11⟩ := key be ct
  have hA : A.Reachable exExt := .mk h1
  have hb : b.Reachable exExt := .mk hA h2
  have he : e.Reachable exExt := .mk h5
  have hA' : (b.aset.setItem "a" (some e)).1.Reachable exExt := .setItem "a" hb.ok.aset he h6
  have hn : "a" ∈ b.aset.names := by
    by_contra hn
    rw [((C85_item hb.ok.aset "a" (some e)).1 (Or.inr hn))] at h7
    cases h7
  obtain ⟨A', q1, q2, -⟩ := (C85_item hb.ok.aset "a" (some e)).2 e rfl hn
  refine ⟨b, e, hb, h3, he, h6, mkElem_unaligned h5, h4, _, Prod.ext rfl h7, hA', by rw [q1]; exact q2,
    .user hb hA' h8, h9, d, h10, h11⟩

end Recourse
