import Verif.Props.Assign
import Verif.Props.Reads
import Verif.Props.Percent

/-!
# C34: what a failed assignment of `x` does to the shared action set
-/

set_option linter.unusedSectionVars false

namespace Recourse

variable {K : Type} [Field K] [LinearOrder K] [IsStrictOrderedRing K] [FloorRing K] {ext : Ext K}

/-- Equal or with filled cache. -/
def Filled (ext : Ext K) (e e' : Elem K) : Prop := e' = e ∨ e' = e.fillCache ext

theorem Filled.trans {a b c : Elem K} (h : Filled ext a b) (g : Filled ext b c) : Filled ext a c := by
  rcases h with rfl | rfl
  · exact g
  · rcases g with rfl | rfl
    · exact .inr rfl
    · exact .inr (fillCache_idem ext a)

theorem visit_filled (js : List ℕ) (A : ActionSet K) (j : ℕ) :
    ∀ e, A.elems[j]? = some e → ∃ e', (A.visit ext js).elems[j]? = some e' ∧ Filled ext e e' := by
  induction js generalizing A with
  | nil => intro e he; exact ⟨e, he, .inl rfl⟩
  | cons i js ih =>
    intro e he
    unfold ActionSet.visit
    cases hi : A.elems[i]? with
    | none => exact ⟨e, he, .inl rfl⟩
    | some f =>
      dsimp only
      split_ifs with hc
      · by_cases hij : i = j
        · subst hij
          obtain rfl : f = e := by rw [hi] at he; exact Option.some.inj he
          obtain ⟨hl, -⟩ := List.getElem?_eq_some_iff.mp hi
          obtain ⟨e', h1, h2⟩ := ih { A with elems := A.elems.set i (f.fillCache ext) } (f.fillCache ext)
            (by simp [hl])
          exact ⟨e', h1, Filled.trans (.inr rfl) h2⟩
        · exact ih _ e (by simp only [List.getElem?_set, if_neg hij]; exact he)
      · exact ⟨e, he, .inl rfl⟩

theorem touch_filled {A : ActionSet K} (hA : A.names.length = A.elems.length) (rc : Bool) (j : ℕ) {e : Elem K}
    (he : A.elems[j]? = some e) : ∃ e', (A.touch ext rc).elems[j]? = some e' ∧ Filled ext e e' := by
  obtain ⟨hl, -⟩ := List.getElem?_eq_some_iff.mp he
  have hn : ∃ n, A.names[j]? = some n := ⟨_, List.getElem?_eq_getElem (hA ▸ hl)⟩
  obtain ⟨n, hn⟩ := hn
  have hz : (A.names.zip A.elems)[j]? = some (n, e) := List.getElem?_zip_eq_some.mpr ⟨hn, he⟩
  unfold ActionSet.touch
  dsimp only
  rw [List.getElem?_map, hz]
  simp only [Option.map_some]
  refine ⟨_, rfl, ?_⟩
  split_ifs
  · exact .inr rfl
  · exact .inl rfl

theorem Filled.getAttr {e e' : Elem K} (h : Filled ext e e') (n : String) : e'.getAttr n = e.getAttr n := by
  rcases h with rfl | rfl
  · rfl
  · obtain ⟨c, hc⟩ := fillCache_eq ext e
    rw [hc]; rfl

theorem Filled.percentile {e e' : Elem K} (h : Filled ext e e') (v : K) :
    e'.percentile ext v = e.percentile ext v := by
  rcases h with rfl | rfl
  · rfl
  · exact C56_stable ext e v

/-- **C34** (partial).  A failed assignment changes nothing that can be read from the shared action set: names,
constraints, desired outcome, every attribute and every percentile of every feature. -/
theorem C34_action_set_partial {b b1 : Builder K} {x : List K} {er : Err} (hr : b.Reachable ext)
    (h : b.setX ext x = (b1, .error er)) :
    b1.aset.names = b.aset.names ∧ b1.aset.cons = b.aset.cons ∧ b1.aset.yDesired = b.aset.yDesired ∧
    (∀ n attr, b1.aset.getElemAttr n attr = b.aset.getElemAttr n attr) ∧
    ∀ (n : String) (e e1 : Elem K) (v : K), b.aset.elem? n = some e → b1.aset.elem? n = some e1 →
      e1.percentile ext v = e.percentile ext v := by
  have hlen : b.aset.names.length = b.aset.elems.length := by
    rw [← hr.ok.aset.wf.names, List.length_map]
  have hcons : ∀ (js : List ℕ) (A : ActionSet K), (A.visit ext js).names = A.names ∧
      (A.visit ext js).cons = A.cons ∧ (A.visit ext js).yDesired = A.yDesired := by
    intro js
    induction js with
    | nil => intro A; exact ⟨rfl, rfl, rfl⟩
    | cons j js ih =>
      intro A
      unfold ActionSet.visit
      cases A.elems[j]? with
      | none => exact ⟨rfl, rfl, rfl⟩
      | some e =>
        dsimp only
        split_ifs
        · exact ih _
        · exact ⟨rfl, rfl, rfl⟩
  have key : b1.aset.names = b.aset.names ∧ b1.aset.cons = b.aset.cons ∧ b1.aset.yDesired = b.aset.yDesired ∧
      ∀ (j : ℕ) (e : Elem K), b.aset.elems[j]? = some e → ∃ e', b1.aset.elems[j]? = some e' ∧ Filled ext e e' := by
    rcases setX_cases ext b x with ⟨-, h2⟩ | ⟨-, e, -, h3⟩ | ⟨-, f, e, -, -, h4⟩ | ⟨-, f, m, -, -, h4⟩
    · rw [h] at h2; cases h2
      exact ⟨rfl, rfl, rfl, fun j e he => ⟨e, he, .inl rfl⟩⟩
    · rw [h] at h3; cases h3
      obtain ⟨g1, g2, g3⟩ := hcons (b.aset.visitOrder ext) b.aset
      exact ⟨g1, g2, g3, fun j e he => visit_filled _ _ j e he⟩
    · rw [h] at h4; cases h4
      exact ⟨rfl, rfl, rfl, fun j e he => touch_filled hlen true j he⟩
    · rw [h] at h4; cases h4
  obtain ⟨k1, k2, k3, k4⟩ := key
  have el : ∀ n e, b.aset.elem? n = some e → ∃ e', b1.aset.elem? n = some e' ∧ Filled ext e e' := by
    intro n e he
    unfold ActionSet.elem? at he ⊢
    rw [k1]
    split_ifs at he ⊢ with hn
    exact k4 _ e he
  have hnone : ∀ n, b.aset.elem? n = none → b1.aset.elem? n = none := by
    intro n hn
    unfold ActionSet.elem? at hn ⊢
    rw [k1]
    split_ifs at hn ⊢ with hm
    · have : b.aset.names.idxOf n < b.aset.elems.length := hlen ▸ List.idxOf_lt_length_iff.mpr hm
      rw [List.getElem?_eq_none_iff] at hn
      omega
    · rfl
  refine ⟨k1, k2, k3, fun n attr => ?_, fun n e e1 v he he1 => ?_⟩
  · unfold ActionSet.getElemAttr
    cases he : b.aset.elem? n with
    | none => rw [hnone n he]
    | some e =>
      obtain ⟨e', h1, h2⟩ := el n e he
      rw [h1]; exact h2.getAttr attr
  · obtain ⟨e', h1, h2⟩ := el n e he
    rw [h1] at he1; cases he1
    exact h2.percentile v

theorem visit_other (js : List ℕ) (A : ActionSet K) {j : ℕ} (hj : j ∉ js) : (A.visit ext js).elems[j]? = A.elems[j]? := by
  induction js generalizing A with
  | nil => rfl
  | cons i js ih =>
    unfold ActionSet.visit
    cases hi : A.elems[i]? with
    | none => rfl
    | some f =>
      dsimp only
      split_ifs
      · rw [ih _ fun h => hj (List.mem_cons_of_mem _ h)]
        dsimp only
        rw [List.getElem?_set, if_neg (fun h => hj (by rw [h]; exact List.mem_cons_self))]
      · rfl

/-- **C34**, what an assignment of `x` does not touch: a feature that is incompatible with the classifier and not listed in a subset limit stays
exactly as it is, also its memory of percentiles, whether the assignment succeeds or not. -/
theorem C34_untouched {b b1 : Builder K} {x : List K} {r : Except Err Unit} (hso : SetOrderOk ext) (hr : b.Reachable ext)
    (h : b.setX ext x = (b1, r)) {j : ℕ} {n : String} {e : Elem K} (hn : b.aset.names[j]? = some n)
    (he : b.aset.elems[j]? = some e) (hc : e.compatible = some false) (hl : ¬ Listed b.aset n) :
    b1.aset.elems[j]? = some e := by
  have hct : e.compatTruthy = false := by unfold Elem.compatTruthy; rw [hc]; rfl
  have hfl : n ∉ b.aset.cons.flatNames := by
    intro hm
    unfold Constraints.flatNames at hm
    obtain ⟨l, hl1, hl2⟩ := List.mem_flatten.mp hm
    obtain ⟨k, hk, rfl⟩ := List.mem_map.mp hl1
    exact hl ⟨k, hk, hl2⟩
  have hvis : (b.aset.visit ext (b.aset.visitOrder ext)).elems[j]? = some e := by
    rw [visit_other _ _ ?_, he]
    intro hm
    unfold ActionSet.visitOrder at hm
    rcases List.mem_append.mp hm with hm | hm
    · have := (List.mem_filter.mp hm).2
      rw [he] at this
      dsimp only at this
      rw [hct] at this; cases this
    · split_ifs at hm with h0
      · obtain ⟨m, hm1, hm2⟩ := List.mem_map.mp hm
        have hmf := (hso _ m).mp hm1
        have hmn : m ∈ b.aset.names := by
          unfold Constraints.flatNames at hmf
          obtain ⟨l, hl1, hl2⟩ := List.mem_flatten.mp hmf
          obtain ⟨k, hk, rfl⟩ := List.mem_map.mp hl1
          exact (hr.ok.aset.wf.cons k hk).known m hl2
        have := List.getElem?_idxOf hmn
        rw [hm2, hn] at this
        cases this
        exact hfl hmf
      · simp at hm
  have htouch : (b.aset.touch ext true).elems[j]? = some e := by
    have hz : (b.aset.names.zip b.aset.elems)[j]? = some (n, e) := List.getElem?_zip_eq_some.mpr ⟨hn, he⟩
    unfold ActionSet.touch
    dsimp only
    rw [List.getElem?_map, hz]
    simp only [Option.map_some]
    rw [if_neg (by simp [hct, hfl])]
  have h1 := (setX_fields ext b x).2.2
  rw [h] at h1
  rcases h1 with h1 | h1 | h1
  · rw [h1]; exact he
  · rw [h1]; exact htouch
  · rw [h1]; exact hvis

/-- Non-vacuity: with a zero coefficient the first feature is not touched, the second is. -/
example : ∃ b1 : Builder ℚ, exBuild .cpx .total [[0, 0], [1, 1]] ["a", "b"] .ok [0, 1] (-1) [0, 0] = .ok b1 ∧
    b1.aset.elems.map (·.compatible) = [some false, some true] ∧ b1.aset.elems.map (fun e => e.cache.isSome) = [false, true] := by
  decide +kernel

/-- Non-vacuity: the failing assignment of `C34_failed_refuted` (nothing to change at the point 1). -/
example : ∃ b1 : Builder ℚ, exBuild .cpx .total [[0], [1]] ["a"] .ok [1] (-1) [0] = .ok b1 ∧
    (b1.setX exExt [1]).2 = .error .key := by decide +kernel

end Recourse
