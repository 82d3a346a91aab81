import Verif.Model.Script
import Verif.Props.FlipUse
import Verif.Props.FlipEx
import Verif.Props.Atomic
import Verif.Props.Reads
import Verif.Props.CplexVars

/-!
# Property C100: customisation scripts, and the script of the README
-/

set_option linter.unusedSectionVars false

namespace Recourse

variable {K : Type} [Field K] [LinearOrder K] [IsStrictOrderedRing K] [FloorRing K]
variable {ext : Ext K} {A A' : ActionSet K}

/-! ## Specification -/

/-- What is done to one feature: an assignment, or `update_grid()`. -/
inductive Step (K : Type)
  | set (attr : String) (v : PyVal K)
  | grid

/-- One step on a feature. -/
def runStep (e : Elem K) : Step K → Except Err (Elem K)
  | .set a v => e.setAttr a v
  | .grid => e.updateGrid

/-- Steps on a feature, one after the other; every one has to succeed. -/
def runSteps (e : Elem K) : List (Step K) → Except Err (Elem K)
  | [] => .ok e
  | s :: t => do runSteps (← runStep e s) t

/-- What a line does to feature `n`. -/
def Line.stepsFor (n : String) : Line K → List (Step K)
  | .one m a v => if m = n then [.set a v] else []
  | .many ns a v => if n ∈ ns then [.set a v] else []
  | .grid m => if m = n then [.grid] else []

/-- What a script does to feature `n`: the lines that name it, in order. -/
def stepsFor (n : String) (s : List (Line K)) : List (Step K) := s.flatMap (Line.stepsFor n)

/-- Lists of features are duplicate-free and get one value for all. -/
def Line.Plain : Line K → Prop
  | .many ns _ v => ns.Nodup ∧ IsScalar v
  | _ => True

/-- The line names features of the set; lists are not empty and get a documented attribute. -/
def Line.Known (names : List String) : Line K → Prop
  | .one n _ _ => n ∈ names
  | .many ns a _ => ns ≠ [] ∧ (∀ n ∈ ns, n ∈ names) ∧ hasElemAttr a = true
  | .grid n => n ∈ names

/-! ## Steps -/

theorem runSteps_append {e : Elem K} (s t : List (Step K)) :
    runSteps e (s ++ t) = (runSteps e s).bind fun e' => runSteps e' t := by
  induction s generalizing e with
  | nil => rfl
  | cons a s ih =>
    simp only [List.cons_append, runSteps]
    cases h : runStep e a with
    | error er => rfl
    | ok e1 => rw [ok_bind, ok_bind, ih]

theorem runSteps_single {e e' : Elem K} {s : Step K} : runSteps e [s] = .ok e' ↔ runStep e s = .ok e' := by
  simp only [runSteps]
  cases runStep e s with
  | error er => exact ⟨fun h => (by cases h), fun h => (by cases h)⟩
  | ok e1 => rw [ok_bind]

/-! ## Positions -/

theorem elem?_known (hr : A.Reachable ext) {n : String} (hn : n ∈ A.names) : ∃ e, A.elem? n = some e ∧
    A.elems[A.names.idxOf n]? = some e := by
  have hlt : A.names.idxOf n < A.elems.length := by
    rw [hr.wf.length]; exact List.idxOf_lt_length_iff.mpr hn
  refine ⟨A.elems[A.names.idxOf n], ?_, List.getElem?_eq_getElem hlt⟩
  unfold ActionSet.elem?
  rw [if_pos hn, List.getElem?_eq_getElem hlt]

theorem elem?_mem {n : String} {e : Elem K} (h : A.elem? n = some e) :
    n ∈ A.names ∧ A.elems[A.names.idxOf n]? = some e := by
  unfold ActionSet.elem? at h
  by_cases hn : n ∈ A.names
  · rw [if_pos hn] at h; exact ⟨hn, h⟩
  · rw [if_neg hn] at h; cases h

theorem elem?_of_names {n : String} (hn : n ∈ A.names) (hN : A'.names = A.names) {e : Elem K}
    (h : A'.elems[A.names.idxOf n]? = some e) : A'.elem? n = some e := by
  unfold ActionSet.elem?
  rw [hN, if_pos hn, h]

theorem idxOf_ne {l : List String} {m n : String} (hm : m ∈ l) (hne : m ≠ n) : l.idxOf m ≠ l.idxOf n := by
  intro h
  exact hne (List.idxOf_inj hm |>.mp h)

/-- Replacing one feature. -/
theorem elem?_set (hr : A.Reachable ext) {m : String} {e1 : Elem K} (hm : m ∈ A.names) (n : String) :
    ({ A with elems := A.elems.set (A.names.idxOf m) e1 } : ActionSet K).elem? n =
      if m = n then some e1 else A.elem? n := by
  have hlt : A.names.idxOf m < A.elems.length := by
    rw [hr.wf.length]; exact List.idxOf_lt_length_iff.mpr hm
  unfold ActionSet.elem?
  by_cases h : m = n
  · subst h
    rw [if_pos rfl, if_pos hm, List.getElem?_set_self hlt]
  · rw [if_neg h]
    by_cases hn : n ∈ A.names
    · rw [if_pos hn, if_pos hn, List.getElem?_set_ne (idxOf_ne hm h)]
    · rw [if_neg hn, if_neg hn]

theorem getItem_names {ns : List String} (hne : ns ≠ []) (h : ∀ n ∈ ns, n ∈ A.names) :
    A.getItem (.list (ns.map .str)) = .ok (ns.map fun n => A.names.idxOf n) := by
  have hm : (ns.map (PyVal.str (K := K))).mapM A.listNamePos = .ok (ns.map fun n => A.names.idxOf n) := by
    clear hne
    induction ns with
    | nil => rfl
    | cons a t ih =>
      rw [List.map_cons, List.mapM_cons, ih fun n hn => h n (List.mem_cons_of_mem _ hn)]
      unfold ActionSet.listNamePos
      dsimp only
      unfold ActionSet.posOfName
      rw [if_pos (h a List.mem_cons_self)]
      rfl
  cases ns with
  | nil => exact absurd rfl hne
  | cons a t =>
    unfold ActionSet.getItem
    exact hm

theorem getItem_names_ok {ns : List String} {pos : List ℕ} (h : A.getItem (.list (ns.map .str)) = .ok pos) :
    ns ≠ [] ∧ ∀ n ∈ ns, n ∈ A.names := by
  cases ns with
  | nil => cases h
  | cons a t =>
    refine ⟨List.cons_ne_nil _ _, ?_⟩
    have hm : ((a :: t).map (PyVal.str (K := K))).mapM A.listNamePos = .ok pos := h
    intro n hn
    by_contra hc
    have hbad : A.listNamePos (.str n : PyVal K) = .error .key := by
      unfold ActionSet.listNamePos; dsimp only; unfold ActionSet.posOfName; rw [if_neg hc]
    obtain ⟨b, -, hb⟩ := mapM_ok_mem' hm (List.mem_map_of_mem hn)
    rw [hbad] at hb
    cases hb

theorem sliceLoop_total {attr : String} {vs : List (PyVal K)} {ents : List (ℕ × ℕ)} {es : List (Elem K)}
    (hnd : (ents.map (·.1)).Nodup)
    (h : ∀ p j, (p, j) ∈ ents → ∃ e v e', es[p]? = some e ∧ vs[j]? = some v ∧ e.setAttr attr v = .ok e') :
    (sliceLoop attr vs ents es).2 = .ok () := by
  induction ents generalizing es with
  | nil => rfl
  | cons pj rest ih =>
    obtain ⟨p0, j0⟩ := pj
    simp only [List.map_cons, List.nodup_cons] at hnd
    obtain ⟨e, v, e', h1, h2, h3⟩ := h p0 j0 List.mem_cons_self
    unfold sliceLoop
    rw [h1, h2]
    dsimp only
    rw [h3]
    dsimp only
    refine ih hnd.2 fun p j hm => ?_
    obtain ⟨e1, v1, e1', g1, g2, g3⟩ := h p j (List.mem_cons_of_mem _ hm)
    have hne : p0 ≠ p := by
      rintro rfl; exact hnd.1 (List.mem_map.mpr ⟨_, hm, rfl⟩)
    exact ⟨e1, v1, e1', by rw [List.getElem?_set_ne hne]; exact g1, g2, g3⟩

theorem expand_scalar {v : PyVal K} (h : IsScalar v) (m : ℕ) : expandValues m v = .ok (List.replicate m v) := by
  cases v <;> first | rfl | exact absurd h (by simp [IsScalar])

/-! ## One line -/

/-- What a line leaves behind. -/
structure LineDone (ext : Ext K) (A A' : ActionSet K) (f : String → List (Step K)) : Prop where
  reachable : A'.Reachable ext
  names : A'.names = A.names
  cons : A'.cons = A.cons
  y : A'.yDesired = A.yDesired
  elems : ∀ n e, A.elem? n = some e → ∃ e', A'.elem? n = some e' ∧ runSteps e (f n) = .ok e'

theorem runLine_one (hr : A.Reachable ext) {m : String} {s : Step K} {e1 e2 : Elem K} (hm : m ∈ A.names)
    (he : A.elem? m = some e1) (h : runStep e1 s = .ok e2)
    (hR : ({ A with elems := A.elems.set (A.names.idxOf m) e2 } : ActionSet K).Reachable ext) :
    LineDone ext A { A with elems := A.elems.set (A.names.idxOf m) e2 }
      fun n => if m = n then [s] else [] := by
  refine ⟨hR, rfl, rfl, rfl, fun n e hn => ?_⟩
  by_cases hmn : m = n
  · subst hmn
    rw [he] at hn; cases hn
    refine ⟨e2, by rw [elem?_set hr hm, if_pos rfl], ?_⟩
    rw [if_pos rfl]
    exact runSteps_single.mpr h
  · refine ⟨e, by rw [elem?_set hr hm, if_neg hmn]; exact hn, ?_⟩
    rw [if_neg hmn]
    rfl

theorem runLine_ok (hr : A.Reachable ext) {l : Line K} (hp : l.Plain) (h : runLine A l = (A', .ok ())) :
    LineDone ext A A' (fun n => l.stepsFor n) := by
  cases l with
  | one m a v =>
    have hR : A'.Reachable ext := by
      have := ActionSet.Reachable.setElem m a v hr
      unfold runLine at h; dsimp only at h; rw [h] at this; exact this
    unfold runLine at h; dsimp only at h
    unfold ActionSet.setElemAttr at h
    cases he : A.elem? m with
    | none => rw [he] at h; cases h
    | some e1 =>
      rw [he] at h; dsimp only at h
      cases hs : e1.setAttr a v with
      | error er => rw [hs] at h; cases h
      | ok e2 =>
        rw [hs] at h; cases h
        exact runLine_one hr (elem?_mem he).1 he (s := .set a v) hs hR
  | grid m =>
    unfold runLine at h; dsimp only at h
    unfold ActionSet.updateGridOf at h
    cases he : A.elem? m with
    | none => rw [he] at h; cases h
    | some e1 =>
      rw [he] at h; dsimp only at h
      cases hs : e1.updateGrid with
      | error er => rw [hs] at h; cases h
      | ok e2 =>
        rw [hs] at h; cases h
        exact runLine_one hr (elem?_mem he).1 he (s := .grid) hs (.updateGrid hr (elem?_mem he).2 hs)
  | many ns a v =>
    have hR : A'.Reachable ext := by
      have := ActionSet.Reachable.setSlice (.list (ns.map .str)) a v hr
      unfold runLine at h; dsimp only at h; rw [h] at this; exact this
    unfold runLine at h; dsimp only at h
    have hg : ∃ pos, A.getItem (.list (ns.map .str)) = .ok pos := by
      unfold ActionSet.setSliceAttr at h
      cases hg : A.getItem (.list (ns.map (PyVal.str (K := K)))) with
      | ok pos => exact ⟨pos, rfl⟩
      | error er => rw [hg] at h; cases h
    obtain ⟨pos, hg⟩ := hg
    obtain ⟨hne, hk⟩ := getItem_names_ok hg
    rw [getItem_names hne hk] at hg
    cases hg
    have hgi := getItem_names hne hk
    have ha : hasElemAttr a = true := by
      by_contra hc
      unfold ActionSet.setSliceAttr at h
      rw [hgi] at h; dsimp only at h
      rw [if_neg hc] at h; cases h
    have hnd : (ns.map fun n => A.names.idxOf n).Nodup := by
      refine List.Nodup.map_on (fun x hx y hy hxy => ?_) hp.1
      exact List.idxOf_inj (hk x hx) |>.mp hxy
    obtain ⟨h1, -, -, h2, h3, h4, h5⟩ := C14_slice_partial hgi hnd ha h
    refine ⟨hR, h3, h4, h5, fun n e hn => ?_⟩
    obtain ⟨hmem, hpos⟩ := elem?_mem hn
    by_cases hin : n ∈ ns
    · obtain ⟨e', g1, g2⟩ := h1 hp.2 _ e (List.mem_map_of_mem hin) hpos
      refine ⟨e', elem?_of_names hmem h3 g1, ?_⟩
      show runSteps e (if n ∈ ns then [.set a v] else []) = _
      rw [if_pos hin]
      exact runSteps_single.mpr g2
    · refine ⟨e, elem?_of_names hmem h3 ?_, ?_⟩
      · rw [h2]
        · exact hpos
        · intro hc
          obtain ⟨m, hm, hmm⟩ := List.mem_map.mp hc
          exact hin (List.idxOf_inj (hk m hm) |>.mp hmm ▸ hm)
      · show runSteps e (if n ∈ ns then [.set a v] else []) = _
        rw [if_neg hin]
        rfl

theorem runLine_runs (hr : A.Reachable ext) {l : Line K} (hp : l.Plain) (hk : l.Known A.names)
    (h : ∀ n e, A.elem? n = some e → ∃ e', runSteps e (l.stepsFor n) = .ok e') :
    ∃ A', runLine A l = (A', .ok ()) := by
  cases l with
  | one m a v =>
    obtain ⟨e, he, -⟩ := elem?_known hr hk
    obtain ⟨e', h1⟩ := h m e he
    unfold Line.stepsFor at h1; dsimp only at h1
    rw [if_pos rfl, runSteps_single] at h1
    have h1 : e.setAttr a v = .ok e' := h1
    unfold runLine; dsimp only; unfold ActionSet.setElemAttr
    rw [he]; dsimp only; rw [h1]
    exact ⟨_, rfl⟩
  | grid m =>
    obtain ⟨e, he, -⟩ := elem?_known hr hk
    obtain ⟨e', h1⟩ := h m e he
    unfold Line.stepsFor at h1; dsimp only at h1
    rw [if_pos rfl, runSteps_single] at h1
    have h1 : e.updateGrid = .ok e' := h1
    unfold runLine; dsimp only; unfold ActionSet.updateGridOf
    rw [he]; dsimp only; rw [h1]
    exact ⟨_, rfl⟩
  | many ns a v =>
    obtain ⟨hne, hk, ha⟩ := hk
    have hnd : (ns.map fun n => A.names.idxOf n).Nodup := by
      refine List.Nodup.map_on (fun x hx y hy hxy => ?_) hp.1
      exact List.idxOf_inj (hk x hx) |>.mp hxy
    unfold runLine; dsimp only; unfold ActionSet.setSliceAttr
    rw [getItem_names hne hk]
    dsimp only
    rw [if_pos ha, sliceEntries_nodup hnd, expand_scalar hp.2]
    dsimp only
    rw [sliceLoop_total]
    · exact ⟨_, rfl⟩
    · rw [← sliceEntries_nodup hnd]; exact (sliceEntries_fst _).1
    · intro p j hm
      rw [List.mem_zipIdx_iff_getElem?] at hm
      have hmem := List.mem_of_getElem? hm
      obtain ⟨n, hn, rfl⟩ := List.mem_map.mp hmem
      obtain ⟨e, he, hpos⟩ := elem?_known hr (hk n hn)
      obtain ⟨e', h1⟩ := h n e he
      unfold Line.stepsFor at h1; dsimp only at h1
      rw [if_pos hn, runSteps_single] at h1
      refine ⟨e, v, e', hpos, ?_, h1⟩
      have hj := (List.getElem?_eq_some_iff.mp hm).1
      rw [List.getElem?_replicate, List.length_zipIdx, if_pos hj]

/-! ## C100: scripts -/

/-- **C100**, locality.  When a customisation script runs through, every feature has got exactly the assignments
(and grid updates) of the lines that name it, in their order; lines about other features play no role; names,
constraints and the desired outcome are untouched. -/
theorem C100_local (hr : A.Reachable ext) {s : List (Line K)} (hp : ∀ l ∈ s, l.Plain)
    (h : runLines A s = (A', .ok ())) :
    A'.Reachable ext ∧ A'.names = A.names ∧ A'.cons = A.cons ∧ A'.yDesired = A.yDesired ∧
    ∀ n e, A.elem? n = some e → ∃ e', A'.elem? n = some e' ∧ runSteps e (stepsFor n s) = .ok e' := by
  induction s generalizing A with
  | nil => cases h; exact ⟨hr, rfl, rfl, rfl, fun n e he => ⟨e, he, rfl⟩⟩
  | cons l ls ih =>
    unfold runLines at h
    cases hl : runLine A l with
    | mk A1 r =>
      rw [hl] at h
      cases r with
      | error er => cases h
      | ok u =>
        cases u
        dsimp only at h
        have hd := runLine_ok hr (hp l List.mem_cons_self) hl
        obtain ⟨h1, h2, h3, h4, h5⟩ := ih hd.reachable (fun l hl => hp l (List.mem_cons_of_mem _ hl)) h
        refine ⟨h1, h2.trans hd.names, h3.trans hd.cons, h4.trans hd.y, fun n e he => ?_⟩
        obtain ⟨e1, g1, g2⟩ := hd.elems n e he
        obtain ⟨e2, g3, g4⟩ := h5 n e1 g1
        refine ⟨e2, g3, ?_⟩
        show runSteps e (l.stepsFor n ++ stepsFor n ls) = _
        rw [runSteps_append, g2]
        exact g4

/-- **C100**, scripts that raise: everything up to the failing statement has been executed, what the failing statement has done itself
stays, and nothing after it runs. -/
theorem C100_raises {s : List (Line K)} {er : Err} (h : runLines A s = (A', .error er)) :
    ∃ pre l post A1, s = pre ++ l :: post ∧ runLines A pre = (A1, .ok ()) ∧ runLine A1 l = (A', .error er) := by
  induction s generalizing A with
  | nil => cases h
  | cons l ls ih =>
    unfold runLines at h
    cases hl : runLine A l with
    | mk A1 r =>
      rw [hl] at h
      cases r with
      | error er' =>
        obtain ⟨rfl, h⟩ := Prod.mk.inj h
        cases h
        exact ⟨[], l, ls, A, rfl, rfl, hl⟩
      | ok u =>
        cases u
        obtain ⟨pre, l', post, A2, h1, h2, h3⟩ := ih h
        refine ⟨l :: pre, l', post, A2, by rw [h1]; rfl, ?_, h3⟩
        unfold runLines
        rw [hl]
        exact h2

/-- **C100**, success.  A script whose lines name features of the set runs through as soon as, for every feature on
its own, the assignments addressed to it are accepted. -/
theorem C100_runs (hr : A.Reachable ext) {s : List (Line K)} (hp : ∀ l ∈ s, l.Plain) (hk : ∀ l ∈ s, l.Known A.names)
    (h : ∀ n e, A.elem? n = some e → ∃ e', runSteps e (stepsFor n s) = .ok e') :
    ∃ A', runLines A s = (A', .ok ()) := by
  induction s generalizing A with
  | nil => exact ⟨A, rfl⟩
  | cons l ls ih =>
    have hsplit : ∀ n e, A.elem? n = some e → ∃ e1, runSteps e (l.stepsFor n) = .ok e1 ∧
        ∃ e2, runSteps e1 (stepsFor n ls) = .ok e2 := by
      intro n e he
      obtain ⟨e2, h2⟩ := h n e he
      have h2 : runSteps e (l.stepsFor n ++ stepsFor n ls) = .ok e2 := h2
      rw [runSteps_append] at h2
      cases h1 : runSteps e (l.stepsFor n) with
      | error er => rw [h1] at h2; cases h2
      | ok e1 => rw [h1] at h2; exact ⟨e1, rfl, e2, h2⟩
    obtain ⟨A1, hl⟩ := runLine_runs hr (hp l List.mem_cons_self) (hk l List.mem_cons_self)
      fun n e he => (hsplit n e he).imp fun e1 h => h.1
    have hd := runLine_ok hr (hp l List.mem_cons_self) hl
    unfold runLines
    rw [hl]
    dsimp only
    refine ih hd.reachable (fun l hl => hp l (List.mem_cons_of_mem _ hl))
      (fun l hl => by rw [hd.names]; exact hk l (List.mem_cons_of_mem _ hl)) fun n e he => ?_
    have hn : n ∈ A.names := by rw [← hd.names]; exact (elem?_mem he).1
    obtain ⟨e0, g0, -⟩ := elem?_known hr hn
    obtain ⟨e1, g1, e2, g2⟩ := hsplit n e0 g0
    obtain ⟨e1', g3, g4⟩ := hd.elems n e0 g0
    rw [he] at g3; cases g3
    rw [g1] at g4; cases g4
    exact ⟨e2, g2⟩

/-! ## C100: the script of the README -/

/-- The features named in the README. -/
def readmeNames : List String :=
  ["Married", "Age_lt_25", "Age_in_25_to_40", "Age_in_40_to_59", "Age_geq_60", "EducationLevel", "TotalMonthsOverdue"]

/-- The features the README declares immutable. -/
def readmeFixed : List String := ["Married", "Age_lt_25", "Age_in_25_to_40", "Age_in_40_to_59", "Age_geq_60"]

theorem readme_plain (attr : String) : ∀ l ∈ (readmeLines attr : List (Line K)), l.Plain := by
  intro l hl
  simp only [readmeLines, List.mem_cons, List.not_mem_nil, or_false] at hl
  rcases hl with rfl | rfl | rfl | rfl | rfl | rfl | rfl | rfl | rfl <;>
    trivial

theorem readme_known {attr : String} (ha : hasElemAttr attr = true) {names : List String}
    (hn : ∀ n ∈ readmeNames, n ∈ names) : ∀ l ∈ (readmeLines attr : List (Line K)), l.Known names := by
  have hsub : ∀ n, n ∈ readmeNames → n ∈ names := hn
  intro l hl
  simp only [readmeLines, List.mem_cons, List.not_mem_nil, or_false] at hl
  rcases hl with rfl | rfl | rfl | rfl | rfl | rfl | rfl | rfl | rfl <;>
    first
    | exact hsub _ (by decide)
    | exact ⟨by simp, fun n hn => hsub n (by
        simp only [List.mem_cons, List.not_mem_nil, or_false] at hn
        rcases hn with rfl | rfl | rfl | rfl <;> decide), ha⟩

/-- The bounds `(0, u)`. -/
def zeroTo (u : ℕ) : Bound K := { btype := .absolute, lb := 0, ub := u, qlb := 0, qub := 100 }

theorem parseBounds_zeroTo (values : List K) (u : ℕ) :
    parseBounds values (.tuple [.int 0, .int (u : ℤ)]) = .ok (zeroTo u) := by
  have hle : ((0 : ℤ) : K) ≤ ((u : ℤ) : K) := by exact_mod_cast Nat.zero_le u
  have h1 : mkBound (.str "absolute") (.int 0) (.int (u : ℤ)) (some values) none = .ok (zeroTo u : Bound K) := by
    unfold mkBound boundVType parseBType boundPair absNum boundNum
    dsimp only
    simp only [ok_bind, decide_eq_true hle, pyAssert_true, zeroTo]
    by_cases hv : determineType values = .int
    · rw [if_pos hv]
      simp
    · rw [if_neg hv]
      simp
  exact h1

/-- The settings of the README for one feature: steps of one unit, bounds `(0, u)`. -/
def unitSteps (e : Elem K) (u : ℕ) : Elem K := { e with stepSize := 1, stepType := .absolute, bounds := zeroTo u }

theorem setAttr_stepSize_one (e : Elem K) : e.setAttr "step_size" (.int 1) = .ok { e with stepSize := 1 } := by
  have h0 : decide ((0 : K) < ((1 : ℤ) : K)) = true := by simp
  have h1 : decide (e.stepType = .relative → ((1 : ℤ) : K) ≤ 1) = true := by simp
  have hp : parseStepSize e.stepType (.int 1) = .ok (1 : K) := by
    unfold parseStepSize
    have hn : stepNum (.int 1 : PyVal K) = .ok (((1 : ℤ) : K)) := rfl
    rw [hn, ok_bind, h0, pyAssert_true, ok_bind, h1, pyAssert_true, ok_bind]
    simp
  show (do let s ← parseStepSize e.stepType (.int 1); .ok { e with stepSize := s }) = _
  rw [hp, ok_bind]

theorem runSteps_unit (e : Elem K) (u : ℕ) : runSteps e [.set "step_size" (.int 1), .set "step_type" (.str "absolute"),
    .set "bounds" (.tuple [.int 0, .int (u : ℤ)])] = .ok (unitSteps e u) := by
  have h1 : runStep e (.set "step_size" (.int 1)) = .ok { e with stepSize := 1 } := setAttr_stepSize_one e
  have h2 : ∀ e : Elem K, runStep e (.set "step_type" (.str "absolute")) = .ok { e with stepType := .absolute } :=
    fun e => rfl
  have h3 : ∀ e : Elem K, runStep e (.set "bounds" (.tuple [.int 0, .int (u : ℤ)])) = .ok { e with bounds := zeroTo u } := by
    intro e
    show (do let b ← parseBounds e.values (.tuple [.int 0, .int (u : ℤ)]); .ok { e with bounds := b }) = _
    rw [parseBounds_zeroTo, ok_bind]
  simp only [runSteps, h1, h2, h3, ok_bind]
  rfl

/-- What the README's script (with the attribute `actionable`) does to a feature. -/
def readmeEffect (n : String) (e : Elem K) : Elem K :=
  if n ∈ readmeFixed then { e with actionable := false }
  else if n = "EducationLevel" then { unitSteps e 3 with stepDir := 1 }
  else if n = "TotalMonthsOverdue" then unitSteps e 100
  else e

theorem readme_steps (n : String) (e : Elem K) :
    runSteps e (stepsFor n (readmeLines "actionable")) = .ok (readmeEffect n e) := by
  have hfix : n ∈ readmeFixed → stepsFor n (readmeLines "actionable" : List (Line K)) =
      [.set "actionable" (.bool false)] := by
    intro h
    simp only [readmeFixed, List.mem_cons, List.not_mem_nil, or_false] at h
    rcases h with rfl | rfl | rfl | rfl | rfl <;> simp [stepsFor, readmeLines, Line.stepsFor]
  by_cases h : n ∈ readmeFixed
  · rw [hfix h, readmeEffect, if_pos h]
    rfl
  · unfold readmeEffect
    rw [if_neg h]
    by_cases h1 : n = "EducationLevel"
    · subst h1
      have hs : stepsFor "EducationLevel" (readmeLines "actionable" : List (Line K)) =
          [.set "step_direction" (.int 1)] ++ [.set "step_size" (.int 1), .set "step_type" (.str "absolute"),
            .set "bounds" (.tuple [.int 0, .int ((3 : ℕ) : ℤ)])] := by
        simp [stepsFor, readmeLines, Line.stepsFor]
      have hd : runSteps e [.set "step_direction" (.int 1)] = .ok { e with stepDir := 1 } := by
        rw [runSteps_single]
        show (do let f ← scalarNum (.int 1 : PyVal K); .ok { e with stepDir := sgn f }) = _
        have : scalarNum (.int 1 : PyVal K) = .ok (((1 : ℤ) : K)) := rfl
        rw [this, ok_bind]
        have h1 : sgn (((1 : ℤ) : K)) = 1 := by simp [sgn]
        rw [h1]
      rw [if_pos rfl, hs, runSteps_append, hd]
      show runSteps { e with stepDir := 1 } _ = _
      rw [runSteps_unit]
      rfl
    · rw [if_neg h1]
      by_cases h2 : n = "TotalMonthsOverdue"
      · subst h2
        have hs : stepsFor "TotalMonthsOverdue" (readmeLines "actionable" : List (Line K)) =
            [.set "step_size" (.int 1), .set "step_type" (.str "absolute"),
              .set "bounds" (.tuple [.int 0, .int ((100 : ℕ) : ℤ)])] := by
          simp [stepsFor, readmeLines, Line.stepsFor]
        rw [if_pos rfl, hs, runSteps_unit]
      · rw [if_neg h2]
        have hs : stepsFor n (readmeLines "actionable" : List (Line K)) = [] := by
          simp only [readmeFixed, List.mem_cons, List.not_mem_nil, or_false, not_or] at h
          obtain ⟨g1, g2, g3, g4, g5⟩ := h
          simp [stepsFor, readmeLines, Line.stepsFor, Ne.symm g1, g2, g3, g4, g5, Ne.symm h1, Ne.symm h2]
        rw [hs]
        rfl

/-- **C100**, the README's script with `actionable` in the place of `mutable`.  On every set that has the features of
the README the script runs through; the five features are immutable, `EducationLevel` may only be increased, the
bounds and steps are as written, and every other feature is as before.  (The grids are as before too, see
`C100_bounds_refuted`.) -/
theorem C100_corrected (hr : A.Reachable ext) (hn : ∀ n ∈ readmeNames, n ∈ A.names) :
    ∃ A', runLines A (readmeLines "actionable") = (A', .ok ()) ∧ A'.Reachable ext ∧ A'.names = A.names ∧
      A'.cons = A.cons ∧ A'.yDesired = A.yDesired ∧
      (∀ n ∈ readmeFixed, ∀ e, A.elem? n = some e → A'.elem? n = some { e with actionable := false }) ∧
      (∀ e, A.elem? "EducationLevel" = some e → A'.elem? "EducationLevel" = some { e with
        stepDir := 1, stepSize := 1, stepType := .absolute,
        bounds := { btype := .absolute, lb := 0, ub := 3, qlb := 0, qub := 100 } }) ∧
      (∀ e, A.elem? "TotalMonthsOverdue" = some e → A'.elem? "TotalMonthsOverdue" = some { e with
        stepSize := 1, stepType := .absolute,
        bounds := { btype := .absolute, lb := 0, ub := 100, qlb := 0, qub := 100 } }) ∧
      (∀ n ∉ readmeNames, A'.elem? n = A.elem? n) := by
  obtain ⟨A', h⟩ := C100_runs hr (readme_plain "actionable") (readme_known (by decide) hn)
    fun n e _ => ⟨_, readme_steps n e⟩
  obtain ⟨h1, h2, h3, h4, h5⟩ := C100_local hr (readme_plain "actionable") h
  have h6 : ∀ n e, A.elem? n = some e → A'.elem? n = some (readmeEffect n e) := by
    intro n e he
    obtain ⟨e', g1, g2⟩ := h5 n e he
    rw [readme_steps] at g2; cases g2
    exact g1
  refine ⟨A', h, h1, h2, h3, h4, fun n hn e he => ?_, fun e he => ?_, fun e he => ?_, fun n hn => ?_⟩
  · rw [h6 n e he, readmeEffect, if_pos hn]
  · rw [h6 _ e he]
    have : readmeEffect "EducationLevel" e = { unitSteps e 3 with stepDir := 1 } := by
      unfold readmeEffect; rw [if_neg (by decide), if_pos rfl]
    rw [this]
    simp [unitSteps, zeroTo]
  · rw [h6 _ e he]
    have : readmeEffect "TotalMonthsOverdue" e = unitSteps e 100 := by
      unfold readmeEffect; rw [if_neg (by decide), if_neg (by decide), if_pos rfl]
    rw [this]
    simp [unitSteps, zeroTo]
  · cases he : A.elem? n with
    | none =>
      unfold ActionSet.elem? at he ⊢
      rw [h2]
      by_cases hm : n ∈ A.names
      · exfalso
        obtain ⟨e, g1, g2⟩ := elem?_known hr hm
        rw [if_pos hm, g2] at he; cases he
      · rw [if_neg hm]
    | some e =>
      have hne : readmeEffect n e = e := by
        unfold readmeEffect
        have k1 : n ∉ readmeFixed := fun hc => hn (List.mem_append_left ["EducationLevel", "TotalMonthsOverdue"] hc)
        have k2 : n ≠ "EducationLevel" := by rintro rfl; exact hn (by decide)
        have k3 : n ≠ "TotalMonthsOverdue" := by rintro rfl; exact hn (by decide)
        rw [if_neg k1, if_neg k2, if_neg k3]
      rw [h6 n e he, hne]

/-- **C100**, consequence for recourse.  On a set customised like that, no item of a flipset, whatever the solver,
the classifier and the person, ever changes one of the five immutable features, and none decreases
`EducationLevel`. -/
theorem C100_recourse {o : Oracle K} {be : Backend} {x w : List K} {t : K} {fs : Flipset K}
    (hso : SetOrderOk ext) (ho : o.Sound) (hr : A.Reachable ext) (hn : ∀ n ∈ readmeNames, n ∈ A.names)
    (hA : runLines A (readmeLines "actionable") = (A', .ok ())) (hx : x.length = A.names.length)
    (h : (mkFlipset be A' x w t none).Used ext o fs) {i : Info K} (hi : i ∈ fs.items) :
    ∃ a, i.actions = some a ∧ a.length = A.names.length ∧
      (∀ n ∈ readmeFixed, a[A.names.idxOf n]? = some 0) ∧
      ∃ v, a[A.names.idxOf "EducationLevel"]? = some v ∧ 0 ≤ v := by
  obtain ⟨A'', k1, k2, k3, -, -, k6, k7, -⟩ := C100_corrected hr hn
  rw [k1] at hA; cases hA
  obtain ⟨a, ha, hrec⟩ := C58_items hso ho k2 h i hi
  obtain ⟨hl, hperm⟩ := hrec.permitted
  have hat : ∀ n ∈ A.names, ∃ xj aj, x[A.names.idxOf n]? = some xj ∧ a[A.names.idxOf n]? = some aj := by
    intro n hn
    have hlt := List.idxOf_lt_length_of_mem hn
    have h1 : A.names.idxOf n < x.length := by rw [hx]; exact hlt
    have h2 : A.names.idxOf n < a.length := by rw [hl]; exact h1
    exact ⟨_, _, List.getElem?_eq_getElem h1, List.getElem?_eq_getElem h2⟩
  refine ⟨a, ha, hl.trans hx, fun n hnf => ?_, ?_⟩
  · have hm : n ∈ A.names := hn n (List.mem_append_left ["EducationLevel", "TotalMonthsOverdue"] hnf)
    obtain ⟨e, he, -⟩ := elem?_known hr hm
    obtain ⟨xj, aj, g1, g2⟩ := hat n hm
    have he' := (elem?_mem (k6 n hnf e he)).2
    rw [k3] at he'
    rcases hperm _ _ _ _ he' g1 g2 with g | ⟨g, -⟩
    · have : aj = 0 := by linarith
      rw [g2, this]
    · cases g
  · have hm : "EducationLevel" ∈ A.names := hn _ (by decide)
    obtain ⟨e, he, -⟩ := elem?_known hr hm
    obtain ⟨xj, aj, g1, g2⟩ := hat _ hm
    have he' := (elem?_mem (k7 e he)).2
    rw [k3] at he'
    refine ⟨aj, g2, ?_⟩
    rcases hperm _ _ _ _ he' g1 g2 with g | ⟨-, -, g, -⟩
    · linarith
    · have := g (by show (0 : ℤ) < 1; decide)
      linarith

/-- **C100** refuted for the README as written.  On every set the script stops with an exception at its second line
(`A[[...]].mutable = False`: no such attribute on a selection); the first line was accepted, but no feature has
become immutable and no later line was executed. -/
theorem C100_readme_refuted (hr : A.Reachable ext) (hn : ∀ n ∈ readmeNames, n ∈ A.names) :
    ∃ A', runLines A (readmeLines "mutable") = (A', .error .assertion) ∧ A'.Reachable ext ∧ A'.names = A.names ∧
      (∀ n e, A.elem? n = some e → ∃ e', A'.elem? n = some e' ∧
        { e' with extra := e.extra } = e ∧ ∀ x drop, e'.feasX x drop = e.feasX x drop) := by
  have hm : "Married" ∈ A.names := hn _ (by decide)
  obtain ⟨e, he, hpos⟩ := elem?_known hr hm
  have h1 : A.setElemAttr "Married" "mutable" (.bool false) =
      ({ A with elems := A.elems.set (A.names.idxOf "Married") { e with extra := ("mutable", .bool false) :: e.extra } },
        .ok ()) := by
    unfold ActionSet.setElemAttr
    rw [he]
    have : attrOf "mutable" = .plain := by decide
    unfold Elem.setAttr
    rw [this]
  have hR := ActionSet.Reachable.setElem "Married" "mutable" (.bool false) hr
  rw [h1] at hR
  refine ⟨_, ?_, hR, rfl, fun n e0 he0 => ?_⟩
  · unfold readmeLines runLines runLine
    dsimp only
    rw [h1]
    dsimp only
    unfold runLines runLine
    dsimp only
    have : ∀ B : ActionSet K, B.names = A.names → B.setSliceAttr (.list
        (["Age_lt_25", "Age_in_25_to_40", "Age_in_40_to_59", "Age_geq_60"].map .str)) "mutable" (.bool false) =
        (B, .error .assertion) := by
      intro B hB
      unfold ActionSet.setSliceAttr
      rw [getItem_names (by simp) fun n hc => by
        rw [hB]
        exact hn n (by
          simp only [List.mem_cons, List.not_mem_nil, or_false] at hc
          rcases hc with rfl | rfl | rfl | rfl <;> decide)]
      dsimp only
      rw [if_neg (by decide)]
    rw [this ({ A with elems := (A.elems.set (A.names.idxOf "Married")
      ({ e with extra := ("mutable", .bool false) :: e.extra } : Elem K)) } : ActionSet K) rfl]
  · by_cases hne : "Married" = n
    · subst hne
      rw [he] at he0; cases he0
      exact ⟨{ e with extra := ("mutable", .bool false) :: e.extra }, by rw [elem?_set hr hm, if_pos rfl], rfl,
        fun x drop => rfl⟩
    · exact ⟨e0, by rw [elem?_set hr hm, if_neg hne]; exact he0, rfl, fun x drop => rfl⟩

/-- **C100** refuted, alignment.  The next line of the README, `A.align(clf)`, names a method that sets do not have
(unless a user has stored an attribute of that name): reading it raises. -/
theorem C100_align_refuted (A : ActionSet K) (h : A.extra.lookup "align" = none) :
    A.getAttr "align" = .error .attribute := by
  unfold ActionSet.getAttr
  rw [if_pos (Or.inr (by decide)), if_neg (by decide), if_neg (by decide), h]
  dsimp only
  rw [if_neg (by decide)]

theorem mkGrid_zeroTo (vt : VType) (u : ℕ) : mkGrid vt (0 : K) u .absolute 1 =
    .ok ⟨(List.range (u + 1)).map (fun (i : ℕ) => (i : K)), decide (vt = .int)⟩ := by
  have hc : ⌈(((u : K) + 1 - 0) / 1)⌉.toNat = u + 1 := by
    have h : (((u : K) + 1 - 0) / 1) = ((u + 1 : ℕ) : K) := by push_cast; ring
    rw [h, Int.ceil_natCast]
    simp
  have hl : ∀ n : ℕ, (List.range n).map (fun (i : ℕ) => (0 : K) + (i : K) * 1) =
      (List.range n).map (fun (i : ℕ) => (i : K)) := fun n => by simp
  by_cases hv : vt = .int
  · unfold mkGrid gridParams
    simp only [hv, if_true, reduceCtorEq, if_false]
    rw [show ((⌊(0 : K)⌋ : ℤ) : K) = 0 by simp, show ((⌈(u : K)⌉ : ℤ) : K) = u by simp,
      show ((⌈(1 : K)⌉ : ℤ) : K) = 1 by simp]
    unfold arange
    rw [if_neg one_ne_zero, ok_bind, hc, hl, List.map_map]
    congr 2
    apply List.map_congr_left
    intro i _
    simp [trunc]
  · unfold mkGrid gridParams
    simp only [hv, if_false, reduceCtorEq]
    unfold arange
    rw [if_neg one_ne_zero, ok_bind, hc, hl]
    simp

/-- The README's script followed by a rebuild of the two grids. -/
def readmeRebuild : List (Line K) :=
  readmeLines "actionable" ++ [.grid "EducationLevel", .grid "TotalMonthsOverdue"]

theorem rebuild_steps (n : String) (e : Elem K) : ∃ e', runSteps e (stepsFor n readmeRebuild) = .ok e' ∧
    (n = "EducationLevel" → e'.grid.vals = [0, 1, 2, 3] ∧ e'.stepDir = 1 ∧ e'.actionable = e.actionable ∧
      e'.flip = e.flip) ∧
    (n = "TotalMonthsOverdue" → e'.grid.vals = (List.range 101).map (fun (i : ℕ) => (i : K)) ∧
      e'.stepDir = e.stepDir ∧ e'.actionable = e.actionable ∧ e'.flip = e.flip) := by
  have hap : stepsFor n (readmeRebuild : List (Line K)) =
      stepsFor n (readmeLines "actionable") ++ stepsFor n [.grid "EducationLevel", .grid "TotalMonthsOverdue"] := by
    unfold readmeRebuild stepsFor
    rw [List.flatMap_append]
  rw [hap, runSteps_append, readme_steps]
  show ∃ e', runSteps (readmeEffect n e) _ = .ok e' ∧ _
  by_cases h1 : n = "EducationLevel"
  · subst h1
    have hs : stepsFor "EducationLevel" ([.grid "EducationLevel", .grid "TotalMonthsOverdue"] : List (Line K)) =
        [.grid] := by simp [stepsFor, Line.stepsFor]
    have he : readmeEffect "EducationLevel" e = { unitSteps e 3 with stepDir := 1 } := by
      unfold readmeEffect; rw [if_neg (by decide), if_pos rfl]
    have hg : runStep (readmeEffect "EducationLevel" e) .grid = .ok { unitSteps e 3 with
        stepDir := 1, grid := ⟨(List.range 4).map (fun (i : ℕ) => (i : K)), decide (e.vtype = .int)⟩ } := by
      rw [he]
      show (do let g ← mkGrid e.vtype 0 ((3 : ℕ) : K) .absolute 1
               .ok { { unitSteps e 3 with stepDir := 1 } with grid := g }) = _
      rw [mkGrid_zeroTo, ok_bind]
    rw [hs]
    refine ⟨_, runSteps_single.mpr hg, fun _ => ⟨?_, rfl, rfl, rfl⟩, fun h => absurd h (by decide)⟩
    show (List.range 4).map (fun (i : ℕ) => (i : K)) = _
    have : List.range 4 = [0, 1, 2, 3] := by decide
    rw [this]
    simp
  · by_cases h2 : n = "TotalMonthsOverdue"
    · subst h2
      have hs : stepsFor "TotalMonthsOverdue" ([.grid "EducationLevel", .grid "TotalMonthsOverdue"] : List (Line K)) =
          [.grid] := by simp [stepsFor, Line.stepsFor]
      have he : readmeEffect "TotalMonthsOverdue" e = unitSteps e 100 := by
        unfold readmeEffect; rw [if_neg (by decide), if_neg (by decide), if_pos rfl]
      have hg : runStep (readmeEffect "TotalMonthsOverdue" e) .grid = .ok { unitSteps e 100 with
          grid := ⟨(List.range 101).map (fun (i : ℕ) => (i : K)), decide (e.vtype = .int)⟩ } := by
        rw [he]
        show (do let g ← mkGrid e.vtype 0 ((100 : ℕ) : K) .absolute 1
                 .ok { unitSteps e 100 with grid := g }) = _
        rw [mkGrid_zeroTo, ok_bind]
      rw [hs]
      exact ⟨_, runSteps_single.mpr hg, fun h => absurd h (by decide), fun _ => ⟨rfl, rfl, rfl, rfl⟩⟩
    · have hs : stepsFor n ([.grid "EducationLevel", .grid "TotalMonthsOverdue"] : List (Line K)) = [] := by
        simp [stepsFor, Line.stepsFor, Ne.symm h1, Ne.symm h2]
      rw [hs]
      exact ⟨_, rfl, fun h => absurd h h1, fun h => absurd h h2⟩

/-- **C100**, bounds and steps.  With `A['EducationLevel'].update_grid()` and `A['TotalMonthsOverdue'].update_grid()`
added, the script runs through on every set with these features, and the bounds are in force: a person is offered, next to
her own level, only the levels 0, 1, 2, 3 that are not below it, and, next to her own number of months, only whole
numbers from 0 to 100. -/
theorem C100_rebuild (hr : A.Reachable ext) (hn : ∀ n ∈ readmeNames, n ∈ A.names) :
    ∃ A', runLines A readmeRebuild = (A', .ok ()) ∧ A'.Reachable ext ∧
      (∀ e x v ra drop, A'.elem? "EducationLevel" = some e → FitsGrid e x → OffersValue e x ra drop v →
        v = x ∨ (x ≤ v ∧ (v = 0 ∨ v = 1 ∨ v = 2 ∨ v = 3))) ∧
      (∀ e x v ra drop, A'.elem? "TotalMonthsOverdue" = some e → FitsGrid e x → OffersValue e x ra drop v →
        v = x ∨ ∃ k : ℕ, k ≤ 100 ∧ v = k) := by
  have hp : ∀ l ∈ (readmeRebuild : List (Line K)), l.Plain := by
    intro l hl
    rcases List.mem_append.mp hl with hl | hl
    · exact readme_plain _ l hl
    · simp only [List.mem_cons, List.not_mem_nil, or_false] at hl
      rcases hl with rfl | rfl <;> trivial
  have hk : ∀ l ∈ (readmeRebuild : List (Line K)), l.Known A.names := by
    intro l hl
    rcases List.mem_append.mp hl with hl | hl
    · exact readme_known (by decide) hn l hl
    · simp only [List.mem_cons, List.not_mem_nil, or_false] at hl
      rcases hl with rfl | rfl
      · exact hn "EducationLevel" (by decide)
      · exact hn "TotalMonthsOverdue" (by decide)
  obtain ⟨A', h⟩ := C100_runs hr hp hk fun n e _ => (rebuild_steps n e).imp fun e' h => h.1
  obtain ⟨h1, h2, -, -, h5⟩ := C100_local hr hp h
  have hfin : ∀ n ∈ readmeNames, ∀ e, A'.elem? n = some e → ∃ e0, runSteps e0 (stepsFor n readmeRebuild) = .ok e := by
    intro n hm e he
    obtain ⟨e0, g0, -⟩ := elem?_known hr (hn n hm)
    obtain ⟨e', g1, g2⟩ := h5 n e0 g0
    rw [he] at g1; cases g1
    exact ⟨e0, g2⟩
  refine ⟨A', h, h1, fun e x v ra drop he hx hv => ?_, fun e x v ra drop he hx hv => ?_⟩
  · obtain ⟨e0, g⟩ := hfin _ (by decide) e he
    obtain ⟨e', g1, g2, -⟩ := rebuild_steps "EducationLevel" e0
    rw [g] at g1; cases g1
    obtain ⟨k1, k2, -⟩ := g2 rfl
    obtain ⟨l, hl, hm⟩ := hv
    rcases (C07_exact hx hl v).mp hm with rfl | ⟨-, hg, hd, -⟩
    · exact Or.inl rfl
    · rw [k1] at hg
      rw [k2] at hd
      refine Or.inr ⟨hd.1 (by decide), ?_⟩
      simpa using hg
  · obtain ⟨e0, g⟩ := hfin _ (by decide) e he
    obtain ⟨e', g1, -, g2⟩ := rebuild_steps "TotalMonthsOverdue" e0
    rw [g] at g1; cases g1
    obtain ⟨k1, -⟩ := g2 rfl
    obtain ⟨l, hl, hm⟩ := hv
    rcases (C07_exact hx hl v).mp hm with rfl | ⟨-, hg, -, -⟩
    · exact Or.inl rfl
    · rw [k1] at hg
      obtain ⟨k, hk, rfl⟩ := List.mem_map.mp hg
      exact Or.inr ⟨k, by have := List.mem_range.mp hk; omega, rfl⟩

/-! ## Examples -/

/-- A small data set with the columns of the README. -/
def exReadmeX : List (List ℚ) :=
  [[0, 1, 0, 0, 0, 1, 0], [1, 0, 1, 0, 0, 5, 30], [1, 0, 0, 1, 0, 2, 200], [0, 0, 0, 0, 1, 3, 7]]

/-- The hypotheses of the README theorems are met; the script of the README raises, the corrected one does not. -/
example : ∃ A : ActionSet ℚ, mkActionSet exReadmeX readmeNames 1 [] defaultBounds (.str "relative") = .ok A ∧
    (∀ n ∈ readmeNames, n ∈ A.names) ∧
    (runLines A (readmeLines "mutable")).2 = .error .assertion ∧
    (runLines A (readmeLines "mutable")).1.elems.map (fun e => e.actionable) = List.replicate 7 true ∧
    (runLines A (readmeLines "actionable")).2 = .ok () ∧
    (runLines A readmeRebuild).2 = .ok () := by
  decide +kernel

/-- **C100** refuted, bounds.  After the corrected script of the README, without `update_grid()`, `EducationLevel`
has the bounds 0 and 3, but a person at level 1 is still offered level 5. -/
theorem C100_bounds_refuted : ∃ A : ActionSet ℚ,
    mkActionSet exReadmeX readmeNames 1 [] defaultBounds (.str "relative") = .ok A ∧
    (runLines A (readmeLines "actionable")).2 = .ok () ∧
    ∃ e, (runLines A (readmeLines "actionable")).1.elem? "EducationLevel" = some e ∧ e.bounds.lb = 0 ∧ e.bounds.ub = 3 ∧
      OffersValue e 1 false true 5 := by
  have : ∃ A : ActionSet ℚ,
    mkActionSet exReadmeX readmeNames 1 [] defaultBounds (.str "relative") = .ok A ∧
    (runLines A (readmeLines "actionable")).2 = .ok () ∧
    ∃ e, (runLines A (readmeLines "actionable")).1.elem? "EducationLevel" = some e ∧ e.bounds.lb = 0 ∧ e.bounds.ub = 3 ∧
      (5 : ℚ) ∈ e.feasX 1 true := by decide +kernel
  obtain ⟨A, h1, h2, e, h3, h4, h5, h6⟩ := this
  refine ⟨A, h1, h2, e, h3, h4, h5, ?_⟩
  exact ⟨e.feasX 1 true, rfl, h6⟩

/-- The hypotheses of `C100_recourse` are met: with a classifier that looks at the education level only, `populate`
on the customised set stores an item for the first person, for every exact solver. -/
example (be : Backend) : ∃ A A' : ActionSet ℚ, A.Reachable exExt ∧ (∀ n ∈ readmeNames, n ∈ A.names) ∧
    runLines A (readmeLines "actionable") = (A', .ok ()) ∧
    ∀ o : Oracle ℚ, o.Exact → ∃ fs : Flipset ℚ,
      (mkFlipset be A' [0, 1, 0, 0, 0, 1, 0] [0, 0, 0, 0, 0, 1, 0] (-5/2) none).Used exExt o fs ∧
      ∃ i ∈ fs.items, ∃ a, i.actions = some a := by
  have key : ∀ be, ∃ A : ActionSet ℚ, exSet exReadmeX readmeNames = .ok A ∧ (∀ n ∈ readmeNames, n ∈ A.names) ∧
      (runLines A (readmeLines "actionable")).2 = .ok () ∧
      (A.yDesired : ℚ) * (dot [0, 0, 0, 0, 0, 1, 0] [0, 1, 0, 0, 0, 1, 0] + -5/2) < 0 ∧
      ∃ b0 : Builder ℚ, mkBuilder be .total (runLines A (readmeLines "actionable")).1 [0, 0, 0, 0, 0, 1, 0] (-5/2) = .ok b0 ∧
      (b0.setX exExt [0, 1, 0, 0, 0, 1, 0]).2 = .ok () ∧
      admitted (b0.buildArgs [0, 1, 0, 0, 0, 1, 0] (b0.setX exExt [0, 1, 0, 0, 0, 1, 0]).1.feats) (fun _ => true) ≠ [] := by
    intro be; cases be <;> decide +kernel
  obtain ⟨A, hA, hn, hrun, hd, c, hc, hx, hk⟩ := key be
  have hAr : A.Reachable exExt := .mk hA
  obtain ⟨A', hA'⟩ : ∃ A', runLines A (readmeLines "actionable") = (A', .ok ()) := ⟨_, Prod.ext rfl hrun⟩
  obtain ⟨hr', -, -, hy, -⟩ := C100_local hAr (readme_plain _) hA'
  rw [hA'] at hc
  have hr : c.Reachable exExt := .mk hr' hc
  refine ⟨A, A', hAr, hn, hA', fun o ho => ?_⟩
  obtain ⟨fs', b1, b', l, h1, h2, h3, h4⟩ := first_populate exExt_order ho.1 hr' hc hx
    (fun _ h2 => (denied_differs hr'.wf.y (by rw [hy]; exact hd) h2.score).2) .distinctSubsets none (by simp)
  obtain ⟨p1, p2⟩ := h2 _ (Nat.lt_succ_self _)
  obtain ⟨b1', feats, g1, g0, g2, b'', t, g3, ht, -, -, -, hend⟩ :=
    exPopulate exExt_order hr hx ho .distinctSubsets none (by simp)
  rw [h1] at g1; cases g1
  have hna : numActionable c.aset = numActionable A' := ((mkBuilder_offers hr' hc).1).numActionable
  have g4 := g3 _ (Nat.lt_succ_self _)
  rw [hna, p2] at g4; cases g4
  rcases hend with ⟨k, hk, -⟩ | hend
  · cases hk
  rw [g2] at hk
  obtain ⟨κ, hκ⟩ := List.exists_mem_of_ne_nil _ hk
  obtain ⟨q, hq, κ', hκ', -, hact, hcut⟩ := hend κ hκ
  exact ⟨fs', .populate .refl p1, q.2, by rw [h3]; exact List.mem_map_of_mem hq, _, hact⟩

end Recourse
