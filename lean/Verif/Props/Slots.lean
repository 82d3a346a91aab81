import Verif.Props.AcceptAny

/-!
# C106: what subset limits really limit
-/

set_option linter.unusedSectionVars false

namespace Recourse

variable {K : Type} [Field K] [LinearOrder K] [IsStrictOrderedRing K] [FloorRing K]

variable {ext : Ext K} {o : Oracle K} {b0 b1 b b' : Builder K} {x : List K} {i : Info K} {feats : List (Feat K)}

/-- Permitted actions in which every change helps and follows the recorded alignment are choices of the program. -/
theorem realise (hso : SetOrderOk ext) (hb : BuilderOK ext b) (hlog : LogOk ext) (h : b.buildInfo ext x = .ok feats)
    (hreg : Placed ext b x) {a : List K} (ha : PermittedAction b.aset x a) (hu : Useful b.aset b.coefs a)
    (hfa : FollowsAlignment b a) : ∃ κ, Choice feats κ ∧ actVec b.coefs.length feats κ = a ∧
      ∀ cs, ActionCosts ext b.costType b.aset x a cs → ∀ (j : ℕ) (u c : K),
        (cstVec b.coefs.length feats κ)[j]? = some u → cs[j]? = some c → u ≤ c := by
  obtain ⟨κ, h1, h2, h3⟩ := exchange_core hso hb hlog h hreg ha (fun j e w v he hw hv hpos => by
    have hjn : j < b.aset.names.length := by rw [← hb.coefs]; exact (List.getElem?_eq_some_iff.mp hw).1
    rcases hfa j _ e w v (List.getElem?_eq_getElem hjn) he hw hv (by rintro rfl; simp at hpos) with h | h
    · exact Or.inl ⟨_, List.getElem?_eq_getElem hjn, h⟩
    · exact Or.inr h)
  have hxl := (buildInfo_spec hso hb h).2.1
  have hal : a.length = b.coefs.length := by rw [ha.1, hxl, hb.coefs]
  refine ⟨κ, h1, ?_, h3⟩
  apply List.ext_getElem
  · rw [actVec_length, hal]
  · intro j hj1 hj2
    have hj : j < b.coefs.length := by rw [← hal]; exact hj2
    have hjn : j < b.aset.names.length := by rw [← hb.coefs]; exact hj
    obtain ⟨c1, c2⟩ := h2 j _ _ _ _ (List.getElem?_eq_getElem hjn) (List.getElem?_eq_getElem hj1)
      (List.getElem?_eq_getElem hj2) (List.getElem?_eq_getElem hj)
    by_cases h0 : a[j] = 0
    · by_cases hl : Listed b.aset b.aset.names[j] ∨ 0 < (b.aset.yDesired : K) * (b.coefs[j] * a[j])
      · exact c1 hl
      · rw [h0]; exact c2 hl
    · exact c1 (hu j _ _ _ (List.getElem?_eq_getElem hjn) (List.getElem?_eq_getElem hj)
        (List.getElem?_eq_getElem hj2) h0)

/-- Recourse as the program sees it: permitted changes of between `min_items` (at least one) and `max_items` features that reach the
desired side; every change helps and follows the recorded alignment (except of listed features); and the subset limits hold in the form
in which the program poses them. -/
structure ProgramRecourse (ext : Ext K) (b : Builder K) (x a : List K) : Prop
    extends IsRecourse b.aset b.coefs b.intercept x a (max b.minItems 1) b.maxItems where
  useful : Useful b.aset b.coefs a
  follows : FollowsAlignment b a
  limits : RespectsPositions ext b.aset x a

/-- The choices of the program are exactly this recourse. -/
theorem choice_program (hso : SetOrderOk ext) (hon : SetOrderOnce ext) (hb : BuilderOK ext b)
    (hfits : ∀ (j : ℕ) (e : Elem K) (xj : K), b.aset.elems[j]? = some e → x[j]? = some xj →
      e.actionable = true → FitsGrid e xj)
    (hal : ∀ e ∈ b.aset.elems, e.flip ≠ none) (h : b.buildInfo ext x = .ok feats)
    {κ : ℕ → ℕ} (hκ : ChoiceOK (b.buildArgs x feats) κ) :
    PositionsExist ext b.aset x ∧ ProgramRecourse ext b x (actVec b.coefs.length feats κ) := by
  obtain ⟨h1, h2⟩ := (positions_iff hso hon hb hfits h hκ.lt).mp hκ.limits
  exact ⟨h1, choice_isRecourse hso hb h hκ, choice_useful hso hb h hκ.lt, choice_follows hso hb h hal κ, h2⟩

theorem program_choice (hso : SetOrderOk ext) (hon : SetOrderOnce ext) (hlog : LogOk ext) (hb : BuilderOK ext b)
    (hreg : Placed ext b x) (h : b.buildInfo ext x = .ok feats) (hpos : PositionsExist ext b.aset x)
    {a : List K} (ha : ProgramRecourse ext b x a) :
    ∃ κ, ChoiceOK (b.buildArgs x feats) κ ∧ actVec b.coefs.length feats κ = a ∧
      ∀ cs, ActionCosts ext b.costType b.aset x a cs → ∀ (j : ℕ) (u c : K),
        (cstVec b.coefs.length feats κ)[j]? = some u → cs[j]? = some c → u ≤ c := by
  obtain ⟨κ, h1, h2, h3⟩ := realise hso hb hlog h hreg ha.permitted ha.useful ha.follows
  have hok := buildInfo_ok hso hb h
  obtain ⟨-, hxl, hspec, -⟩ := buildInfo_spec hso hb h
  have hsize : numChanged a = choiceSize feats κ := by rw [← actVec_countP hok h1, h2]; rfl
  refine ⟨κ, ⟨h1, ?_, ?_, ?_, ?_⟩, h2, h3⟩
  · have hgain : dot b.coefs (actVec b.coefs.length feats κ) = choiceGain feats κ :=
      actVec_dot hok rfl fun f hf => by obtain ⟨_, _, _, _, hs⟩ := hspec f hf; exact hs.coef
    have hsc := ha.score
    unfold ReachesScore at hsc
    rw [dot_vadd _ _ _ ha.permitted.1.symm, ← h2, hgain] at hsc
    have e : dot b.coefs x + choiceGain feats κ + b.intercept = b.score x + choiceGain feats κ := by
      unfold Builder.score; ring
    rw [e] at hsc
    exact hsc
  · change max b.minItems 1 ≤ choiceSize feats κ
    rw [← hsize]; exact ha.min
  · change choiceSize feats κ ≤ b.maxItems
    rw [← hsize]; exact ha.max
  · refine (positions_iff hso hon hb hreg.fits h h1).mpr ⟨hpos, ?_⟩
    rw [h2]; exact ha.limits

/-- **C106**, what every answer meets: for every action set, alignment and subset limits, the answers of every sound solver respect the limits
in the form in which the program poses them: the column numbers of the listed features are taken as positions in the list of the columns
of the program. -/
theorem C106_positions (hso : SetOrderOk ext) (hon : SetOrderOnce ext) (ho : o.Sound) (hr : b0.Reachable ext)
    (hfits : ∀ (j : ℕ) (e : Elem K) (xj : K), b0.aset.elems[j]? = some e → x[j]? = some xj →
      e.actionable = true → FitsGrid e xj)
    (hx : b0.setX ext x = (b1, .ok ())) (ha : b1.After o b) (hf : b.fit o = .ok (b', i))
    (hi : i.feasible = true) :
    ∃ a, i.actions = some a ∧ PositionsExist ext b0.aset x ∧ ProgramRecourse ext b0 x a := by
  obtain ⟨feats, h1, h2, h3⟩ := Posed.setX hso hr.ok hx
  obtain ⟨Q, -, hq⟩ := h3.after h2 ho ha
  obtain ⟨-, -, rfl⟩ := fit_ok hf
  rcases hq.solved h2 ho with ⟨-, he, -⟩ | ⟨σ, κ, -, -, hk, -, hrep, -⟩
  · rw [he] at hi; cases hi
  exact ⟨_, hrep.actions, choice_program hso hon hr.ok hfits (accepted_aligned hr hx) h1 hk⟩

/-- The best choice is the best recourse. -/
theorem program_best (hso : SetOrderOk ext) (hon : SetOrderOnce ext) (hlog : LogOk ext) (hb : BuilderOK ext b)
    (hreg : Placed ext b x) (hal : ∀ e ∈ b.aset.elems, e.flip ≠ none) (h : b.buildInfo ext x = .ok feats)
    (hpos : PositionsExist ext b.aset x) {κ : ℕ → ℕ} {P : (ℕ → ℕ) → Prop} {R : List K → Prop}
    (hk : ChoiceOK (b.buildArgs x feats) κ) (hrep : Reports b.coefs.length (b.buildArgs x feats) κ i)
    (hbest : Best (b.buildArgs x feats) P κ i)
    (hR : ∀ κ', ChoiceOK (b.buildArgs x feats) κ' → (P κ' ↔ R (actVec b.coefs.length feats κ'))) (hPκ : P κ) :
    BestOf ext b x (fun a => ProgramRecourse ext b x a ∧ R a) i := by
  have h2 := buildInfo_ok hso hb h
  have hpr := (choice_program hso hon hb hreg.fits hal h hk).2
  have hac := placed_actionCosts hso hb hlog h hreg hk.lt
  refine ⟨_, _, _, hbest.cost, hrep.actions, hrep.costs, ⟨hpr, (hR κ hk).mp hPκ⟩, hac, ?_, ?_⟩
  · intro hct
    have hct' : (b.buildArgs x feats).costType ≠ .max := hct
    rw [if_neg hct']
    refine ⟨(cstVec_sum h2).symm, fun a' cs' har' hcs' => ?_⟩
    obtain ⟨κ', hκ', hav, hle⟩ := program_choice hso hon hlog hb hreg h hpos har'.1
    have hl := hbest.least κ' hκ' ((hR κ' hκ').mpr (by rw [hav]; exact har'.2))
    have hobj : ∀ κ'', choiceObj (b.buildArgs x feats).costType (b.buildArgs x feats).feats κ''
        = choiceSum feats κ'' := by
      intro κ''
      change choiceObj b.costType feats κ'' = _
      unfold choiceObj
      revert hct
      cases b.costType with
      | max => intro h; exact absurd rfl h
      | total => intro _; rfl
      | loc => intro _; rfl
    rw [hobj, hobj] at hl
    refine le_trans hl ?_
    rw [← cstVec_sum h2 (κ := κ')]
    apply pointwise_sum_le
    · obtain ⟨-, hxl, -, -⟩ := buildInfo_spec hso hb h
      rw [cstVec_length, hcs'.1, hxl, hb.coefs]
    · exact hle cs' hcs'
  · intro hct
    have hct' : (b.buildArgs x feats).costType = .max := hct
    rw [if_pos hct']
    obtain ⟨m1, m2⟩ := choiceMax_cst h2 hk.lt (le_trans (le_max_right _ _) hk.lo)
    refine ⟨m1, m2, fun a' cs' M' har' hcs' hM hM' => ?_⟩
    obtain ⟨κ', hκ', hav, hle⟩ := program_choice hso hon hlog hb hreg h hpos har'.1
    have hl := hbest.least κ' hκ' ((hR κ' hκ').mpr (by rw [hav]; exact har'.2))
    exact max_core_any hso hlog hb h hreg hct hk hκ' hl har'.1.permitted hcs' hM hM' (hle cs' hcs')

/-- The subset limits of an accepted point are in range. -/
theorem accepted_positions (hso : SetOrderOk ext) (hon : SetOrderOnce ext) (hb : BuilderOK ext b0) (hreg : Placed ext b0 x)
    (hx : b0.setX ext x = (b1, .ok ())) : PositionsExist ext b0.aset x := by
  obtain ⟨feats', m, -, hfs, hm, -⟩ := setX_ok hx
  obtain ⟨lims, hl, -, -⟩ := buildMip_ok hm
  exact (positions_total hso hon hb hreg hfs b0.backend).mp ⟨lims, hl⟩

/-- **C106**, the exact answer: when grids and percentiles are in order at an accepted point, an exact solver reports recourse exactly if
there is recourse as the program sees it, and the answer is the best such recourse.  Nothing is assumed of the alignment,
the subset limits, the item limits or the predicted outcome of the point. -/
theorem C106_answers (hso : SetOrderOk ext) (hon : SetOrderOnce ext) (hlog : LogOk ext) (ho : o.Exact) (hr : b0.Reachable ext)
    (hreg : Placed ext b0 x) (hx : b0.setX ext x = (b1, .ok ())) (ha : b1.Refitted o b) (hf : b.fit o = .ok (b', i)) :
    (i.feasible = true ↔ ∃ a, ProgramRecourse ext b0 x a) ∧
    (i.feasible = true → BestOf ext b0 x (ProgramRecourse ext b0 x) i) := by
  obtain ⟨feats, h1, h2, h3⟩ := Posed.setX hso hr.ok hx
  have hal := accepted_aligned hr hx
  have hpos := accepted_positions hso hon hr.ok hreg hx
  obtain ⟨-, -, rfl⟩ := fit_ok hf
  rcases (h3.refitted ha).solved h2 ho.1 with ⟨-, he, hn⟩ | ⟨σ, κ, -, -, hk, -, hrep, hbest⟩
  · rw [he]
    have hne : ¬ (emptyInfo : Info K).feasible = true := Bool.false_ne_true
    refine ⟨⟨fun h => absurd h hne, ?_⟩, fun h => absurd h hne⟩
    rintro ⟨a, har⟩
    obtain ⟨κ, hκ, -⟩ := program_choice hso hon hlog hr.ok hreg h1 hpos har
    exact absurd ⟨κ, hκ, trivial⟩ (hn ho.2)
  refine ⟨⟨fun _ => ⟨_, (choice_program hso hon hr.ok hreg.fits hal h1 hk).2⟩, fun _ => hrep.feasible⟩, fun _ => ?_⟩
  have hb := program_best hso hon hlog hr.ok hreg hal h1 hpos hk hrep (hbest ho.2) (R := fun _ => True)
    (fun κ' _ => Iff.rfl) trivial
  have he : (fun a => ProgramRecourse ext b0 x a ∧ True) = ProgramRecourse ext b0 x := funext fun a => and_true _
  rw [he] at hb
  exact hb

/-- `decide` says whether, with any decision procedure. -/
theorem decide_any {p : Prop} (d : Decidable p) : @decide p d = true ↔ p := decide_eq_true_iff

/-- **C106**, when the two readings agree: if the limits apply (`LimitsApply`: every column up to the last listed one is usable and listed
features are not negative), the program enforces exactly the limits of the specification. -/
theorem C106_agree {A : ActionSet K} (hA : A.Reachable ext) (hxl : x.length = A.names.length) (hla : LimitsApply A x)
    {a : List K} (hal : a.length = x.length) :
    PositionsExist ext A x ∧ (RespectsPositions ext A x a ↔ RespectsLimits A x a) := by
  classical
  have hwf := hA.wf
  have hcol : ∀ k ∈ A.cons.items, ∀ n ∈ k.names, (programColumns ext A x)[A.names.idxOf n]? = some (A.names.idxOf n) := by
    intro k hk n hn
    have hm := (hwf.cons k hk).known n hn
    have hlt : A.names.idxOf n < A.names.length := List.idxOf_lt_length_iff.mpr hm
    obtain ⟨-, hu⟩ := hla _ n (List.getElem?_idxOf hm) ⟨k, hk, hn⟩
    set l := A.names.idxOf n
    have hin : ∀ j ≤ l, CompatibleColumn A j ∧ HasChange A x j := by
      intro j hj
      have hjn : j < A.names.length := by omega
      have hje : j < A.elems.length := by rw [hwf.length]; exact hjn
      have hjx : j < x.length := by rw [hxl]; exact hjn
      obtain ⟨h1, -, v, h3, h4, h5⟩ := hu j hj _ _ _ (List.getElem?_eq_getElem hjn) (List.getElem?_eq_getElem hje)
        (List.getElem?_eq_getElem hjx)
      refine ⟨fun e he => ?_, _, _, _, v, List.getElem?_eq_getElem hjn, List.getElem?_eq_getElem hje,
        List.getElem?_eq_getElem hjx, h3, h4, h5⟩
      rw [List.getElem?_eq_getElem hje] at he
      obtain rfl := Option.some.inj he
      exact h1
    unfold programColumns
    obtain ⟨m, hm⟩ : ∃ m, A.names.length = l + 1 + m := ⟨A.names.length - (l + 1), by omega⟩
    rw [hm, List.range_add, List.filter_append]
    have hself : (List.range (l + 1)).filter (fun j => decide (CompatibleColumn A j ∧ HasChange A x j)) = List.range (l + 1) := by
      rw [List.filter_eq_self]
      intro j hj
      exact decide_eq_true (hin j (by have := List.mem_range.mp hj; omega))
    rw [hself, List.append_assoc, List.getElem?_append_left (by rw [List.length_range]; omega),
      List.getElem?_range (by omega)]
  refine ⟨fun k hk n hn => (List.getElem?_eq_some_iff.mp (hcol k hk n hn)).1, ?_⟩
  unfold RespectsPositions RespectsLimits
  refine forall₂_congr fun k hk => ?_
  have : numMoved ext A x a k.names = numNonzero A x a k.names := by
    unfold numMoved numNonzero
    apply List.countP_congr
    intro n hn
    have hm := (hwf.cons k hk).known n hn
    have hlt : A.names.idxOf n < A.names.length := List.idxOf_lt_length_iff.mpr hm
    have hlx : A.names.idxOf n < x.length := by rw [hxl]; exact hlt
    have hla' : A.names.idxOf n < a.length := by rw [hal]; exact hlx
    have hnn := (hla _ n (List.getElem?_idxOf hm) ⟨k, hk, hn⟩).1 _ (List.getElem?_eq_getElem hlx)
    have hval : (vadd x a).getD (A.names.idxOf n) 0 = x[A.names.idxOf n] + a[A.names.idxOf n] := by
      unfold vadd
      rw [List.getD_eq_getElem?_getD, List.getElem?_zipWith, List.getElem?_eq_getElem hlx, List.getElem?_eq_getElem hla']
      rfl
    have hrest : AtRest A x a (A.names.idxOf n) ↔ x[A.names.idxOf n] + a[A.names.idxOf n] = 0 := by
      constructor
      · rintro ⟨n', xj, aj, h1, h2, h3, h4, h5⟩
        rw [List.getElem?_idxOf hm] at h1; obtain rfl := Option.some.inj h1
        rw [List.getElem?_eq_getElem hlx] at h2; obtain rfl := Option.some.inj h2
        rw [List.getElem?_eq_getElem hla'] at h3; obtain rfl := Option.some.inj h3
        rcases hnn.lt_or_eq with hp | hz
        · exact h4 ⟨⟨k, hk, hn⟩, hp⟩
        · rw [h5 (fun hh => absurd hz hh.2.ne), ← hz, add_zero]
      · intro h0
        refine ⟨n, _, _, List.getElem?_idxOf hm, List.getElem?_eq_getElem hlx, List.getElem?_eq_getElem hla',
          fun _ => h0, fun hh => ?_⟩
        rcases hnn.lt_or_eq with hp | hz
        · exact absurd ⟨⟨k, hk, hn⟩, hp⟩ hh
        · rw [← hz, zero_add] at h0; exact h0
    have hP : (∃ j, (programColumns ext A x)[A.names.idxOf n]? = some j ∧ ¬ AtRest A x a j) ↔
        (vadd x a).getD (A.names.idxOf n) 0 ≠ 0 := by
      rw [hcol k hk n hn, hval]
      constructor
      · rintro ⟨j, hj, hnr⟩ h0
        obtain rfl := Option.some.inj hj
        exact hnr (hrest.mpr h0)
      · intro h0
        exact ⟨_, rfl, fun hh => h0 (hrest.mp hh)⟩
    exact (decide_any _).trans (hP.trans (decide_any _).symm)
  rw [this]

end Recourse
