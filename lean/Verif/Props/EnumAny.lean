import Verif.Props.Slots
import Verif.Props.Enum

/-!
# C107: what enumerations enumerate, with any alignment and any subset limits
-/

set_option linter.unusedSectionVars false

namespace Recourse

variable {K : Type} [Field K] [LinearOrder K] [IsStrictOrderedRing K] [FloorRing K]

variable {ext : Ext K} {o : Oracle K} {b0 b1 b b' : Builder K} {x : List K} {l : List (Info K)} {feats : List (Feat K)}
  {et : EnumType} {fuel : ℕ} {total : Option ℕ} {κ κ' : ℕ → ℕ}

/-- The nullifying positions tell which columns are at rest. -/
theorem sameAtRest_iff (hso : SetOrderOk ext) (hb : BuilderOK ext b) (h : b.buildInfo ext x = .ok feats)
    (hκ : Choice feats κ) (hκ' : Choice feats κ') :
    SameAtRest b.aset x (actVec b.coefs.length feats κ) (actVec b.coefs.length feats κ') ↔
      ∀ f ∈ feats, (κ f.idx = f.kNull ↔ κ' f.idx = f.kNull) := by
  have hok := buildInfo_ok hso hb h
  obtain ⟨-, hxl, hspec, -⟩ := buildInfo_spec hso hb h
  constructor
  · intro hs f hf
    obtain ⟨e, xj, t, T, hf'⟩ := hspec f hf
    rw [hf'.rest_iff hok hf hκ, hf'.rest_iff hok hf hκ']
    exact hs f.idx (List.getElem?_eq_some_iff.mp hf'.name).1
  · intro hall j hj
    by_cases hc : ∃ f ∈ feats, f.idx = j
    · obtain ⟨f, hf, rfl⟩ := hc
      obtain ⟨e, xj, t, T, hf'⟩ := hspec f hf
      rw [← hf'.rest_iff hok hf hκ, ← hf'.rest_iff hok hf hκ']
      exact hall f hf
    · push Not at hc
      have hjc : j < b.coefs.length := by rw [hb.coefs]; exact hj
      have e1 : (actVec b.coefs.length feats κ)[j]? = some 0 := put_other (fun f => f.act κ) hjc hc
      have e2 : (actVec b.coefs.length feats κ')[j]? = some 0 := put_other (fun f => f.act κ') hjc hc
      unfold AtRest
      rw [e1, e2]

/-- The cuts are the relation of the specification. -/
theorem cutBy_iff (hso : SetOrderOk ext) (hb : BuilderOK ext b) (h : b.buildInfo ext x = .ok feats)
    (hκ : Choice feats κ) (hκ' : Choice feats κ') : CutBy et b.backend feats κ κ' ↔
      EnumApart et b.backend b.aset x (actVec b.coefs.length feats κ) (actVec b.coefs.length feats κ') := by
  have hok := buildInfo_ok hso hb h
  cases et with
  | mutuallyExclusive =>
    rw [mutex_iff hok hκ hκ']
    cases b.backend <;> exact Iff.rfl
  | distinctSubsets =>
    cases hbe : b.backend with
    | pymip => exact CutsOff.iff (be := .pymip) (fun f _ => Or.inl rfl) hok hκ hκ'
    | cpx =>
      change (∃ f ∈ feats, ¬ (κ' f.idx = f.kNull ↔ κ f.idx = f.kNull)) ↔ ¬ SameAtRest _ _ _ _
      rw [sameAtRest_iff hso hb h hκ hκ']
      push Not
      constructor
      · rintro ⟨f, hf, hh⟩; exact ⟨f, hf, by tauto⟩
      · rintro ⟨f, hf, hh⟩; exact ⟨f, hf, by tauto⟩

/-- The optimality of an item among what its predecessors leave. -/
theorem Trace.best_at {n : ℕ} {be : Backend} {p : BuildArgs K} {ex : Prop} {P : (ℕ → ℕ) → Prop}
    {t : List ((ℕ → ℕ) × Info K)} (h : Trace n be et p ex P t) (hex : ex) {k : ℕ} {q : (ℕ → ℕ) × Info K}
    (hk : t[k]? = some q) : Best p (fun κ' => P κ' ∧ ∀ r ∈ t.take k, CutBy et be p.feats r.1 κ') q.1 q.2 := by
  induction t generalizing P k with
  | nil => simp at hk
  | cons r t ih =>
    obtain ⟨κ, i⟩ := r
    obtain ⟨-, -, -, h4, h5⟩ := h
    cases k with
    | zero =>
      simp at hk
      subst hk
      obtain ⟨g1, g2, g3⟩ := h4 hex
      exact ⟨fun κ' hκ hP => g1 κ' hκ hP.1, g2, g3⟩
    | succ k =>
      obtain ⟨g1, g2, g3⟩ := ih h5 (by simpa using hk)
      refine ⟨fun κ' hκ hP => g1 κ' hκ ⟨⟨hP.1, hP.2 (κ, i) (by simp)⟩, fun r hr => hP.2 r (by simp [hr])⟩, g2, g3⟩

/-- **C107**, whatever the alignment, the subset limits and the back end: the items of an enumeration are recourse as the program sees it,
and any two of them are apart in the way the enumeration asks for (every sound solver, any earlier fits and enumerations). -/
theorem C107_apart (hso : SetOrderOk ext) (hon : SetOrderOnce ext) (ho : o.Sound) (hr : b0.Reachable ext)
    (hfits : ∀ (j : ℕ) (e : Elem K) (xj : K), b0.aset.elems[j]? = some e → x[j]? = some xj →
      e.actionable = true → FitsGrid e xj)
    (hx : b0.setX ext x = (b1, .ok ())) (ha : b1.After o b) (hp : b.populate o et fuel total = .ok (some (b', l))) :
    (∀ i ∈ l, ∃ a, i.actions = some a ∧ ProgramRecourse ext b0 x a) ∧
    l.Pairwise (Info.Related (EnumApart et b0.backend b0.aset x)) := by
  obtain ⟨feats, h1, h2, h3⟩ := Posed.setX hso hr.ok hx
  obtain ⟨Q, -, hq⟩ := h3.after h2 ho ha
  obtain ⟨t, rfl, ht, -⟩ := hq.popLoop h2 ho (populate_ok hp).2.2
  rw [List.nil_append, List.pairwise_map]
  constructor
  · intro i hi
    obtain ⟨q, hq, rfl⟩ := List.mem_map.mp hi
    exact ⟨_, (ht.mem q hq).2.2.actions, (choice_program hso hon hr.ok hfits (accepted_aligned hr hx) h1 (ht.mem q hq).1).2⟩
  · refine ht.cut.imp_of_mem ?_
    intro q r hq hr' hcb
    exact (ht.mem q hq).2.2.related (ht.mem r hr').2.2 ((cutBy_iff hso hr.ok h1 (ht.mem q hq).1.lt (ht.mem r hr').1.lt).mp hcb)

/-- **C107**, the order of the items: when grids and percentiles are in order at an accepted point, with an exact solver every item is the
best recourse (as the program sees it) that is apart from all items before it. -/
theorem C107_next (hso : SetOrderOk ext) (hon : SetOrderOnce ext) (hlog : LogOk ext) (ho : o.Exact) (hr : b0.Reachable ext)
    (hreg : Placed ext b0 x) (hx : b0.setX ext x = (b1, .ok ())) (ha : b1.Refitted o b)
    (hp : b.populate o et fuel total = .ok (some (b', l))) {k : ℕ} {i : Info K} (hi : l[k]? = some i) :
    BestOf ext b0 x (fun a => ProgramRecourse ext b0 x a ∧
      ∀ i' ∈ l.take k, ∀ a', i'.actions = some a' → EnumApart et b0.backend b0.aset x a' a) i := by
  obtain ⟨feats, h1, h2, h3⟩ := Posed.setX hso hr.ok hx
  have hal := accepted_aligned hr hx
  have hpos := accepted_positions hso hon hr.ok hreg hx
  obtain ⟨t, rfl, ht, -, -, -⟩ := (h3.refitted ha).popLoop h2 ho.1 (populate_ok hp).2.2
  rw [List.nil_append] at hi ⊢
  rw [List.getElem?_map] at hi
  obtain ⟨q, hq, rfl⟩ : ∃ q, t[k]? = some q ∧ q.2 = i := by
    cases hq : t[k]? with
    | none => rw [hq] at hi; cases hi
    | some q => rw [hq] at hi; exact ⟨q, rfl, Option.some.inj hi⟩
  have hqm : q ∈ t := List.mem_of_getElem? hq
  obtain ⟨hk, -, hrep⟩ := ht.mem q hqm
  refine program_best hso hon hlog hr.ok hreg hal h1 hpos hk hrep (ht.best_at ho.2 hq) ?_ ⟨trivial, ?_⟩
  · intro κ' hκ'
    constructor
    · rintro ⟨-, hc⟩ i' hi' a' ha'
      rw [← List.map_take] at hi'
      obtain ⟨r, hr', rfl⟩ := List.mem_map.mp hi'
      have hrt : r ∈ t := List.mem_of_mem_take hr'
      rw [(ht.mem r hrt).2.2.actions] at ha'
      obtain rfl := Option.some.inj ha'
      exact (cutBy_iff hso hr.ok h1 (ht.mem r hrt).1.lt hκ'.lt).mp (hc r hr')
    · intro hap
      refine ⟨trivial, fun r hr' => ?_⟩
      have hrt : r ∈ t := List.mem_of_mem_take hr'
      exact (cutBy_iff hso hr.ok h1 (ht.mem r hrt).1.lt hκ'.lt).mpr
        (hap r.2 (by rw [← List.map_take]; exact List.mem_map_of_mem hr') _ (ht.mem r hrt).2.2.actions)
  · intro r hr'
    obtain ⟨m, hm, rfl⟩ := List.mem_iff_getElem.mp hr'
    obtain ⟨hkl, hqk⟩ := List.getElem?_eq_some_iff.mp hq
    rw [List.length_take] at hm
    have := List.pairwise_iff_getElem.mp ht.cut m k (by omega) hkl (by omega)
    rw [hqk] at this
    rw [List.getElem_take]
    exact this

/-- **C107**, the end: if an exact solver stops the enumeration (fewer items than asked for, or no bound), no recourse as the program sees it
is apart from all items; this holds for every cost type. -/
theorem C107_stop (hso : SetOrderOk ext) (hon : SetOrderOnce ext) (hlog : LogOk ext) (ho : o.Exact) (hr : b0.Reachable ext)
    (hreg : Placed ext b0 x) (hx : b0.setX ext x = (b1, .ok ())) (ha : b1.Refitted o b)
    (hp : b.populate o et fuel total = .ok (some (b', l))) (hstop : ∀ k, total = some k → l.length < k) :
    ∀ a, ProgramRecourse ext b0 x a →
      ∃ i ∈ l, ∃ a', i.actions = some a' ∧ ¬ EnumApart et b0.backend b0.aset x a' a := by
  intro a har
  obtain ⟨feats, h1, h2, h3⟩ := Posed.setX hso hr.ok hx
  have hpos := accepted_positions hso hon hr.ok hreg hx
  obtain ⟨t, rfl, ht, -, -, hend⟩ := (h3.refitted ha).popLoop h2 ho.1 (populate_ok hp).2.2
  rw [List.nil_append] at hstop ⊢
  have hend : ¬ ∃ κ, ChoiceOK (b0.buildArgs x feats) κ ∧ Left et b0.backend (b0.buildArgs x feats) (fun _ => True) t κ := by
    rcases hend with ⟨k, hk, hlen⟩ | hend
    · have := hstop k hk
      simp at this; omega
    · exact hend ho.2
  obtain ⟨κ, hκ, rfl, -⟩ := program_choice hso hon hlog hr.ok hreg h1 hpos har
  obtain ⟨q, hq, hnc⟩ : ∃ q ∈ t, ¬ CutBy et b0.backend feats q.1 κ := by
    by_contra hall
    push Not at hall
    exact hend ⟨κ, hκ, trivial, hall⟩
  exact ⟨q.2, List.mem_map_of_mem hq, _, (ht.mem q hq).2.2.actions,
    fun hh => hnc ((cutBy_iff hso hr.ok h1 (ht.mem q hq).1.lt hκ.lt).mpr hh)⟩

end Recourse
