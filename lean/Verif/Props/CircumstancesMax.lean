import Verif.Props.Circumstances
import Verif.Props.Audit

/-!
# C119 for the largest cost, and for audits
-/

set_option linter.unusedSectionVars false

namespace Recourse

variable {K : Type} [Field K] [LinearOrder K] [IsStrictOrderedRing K] [FloorRing K]

variable {ext : Ext K} {o o' : Oracle K} {b0 b1 b2 b3 d0 d1 d2 d3 : Builder K} {x x' a cs : List K} {i i' : Info K}
  {A : ActionSet K}

theorem SameActionable.get (h : SameActionable A x x') {j : ℕ} {e : Elem K} {v v' : K} (he : A.elems[j]? = some e)
    (ha : e.actionable = true) (hx : x[j]? = some v) (hx' : x'[j]? = some v') : v' = v := by
  have := h.2 j e he ha
  rw [hx, hx'] at this
  exact Option.some.inj this

/-- A column that can be used is actionable, so both points have the same value there. -/
theorem UsableColumn.same (h : SameActionable A x x') (hel : A.elems.length = A.names.length) (hxl : x.length = A.names.length)
    {j : ℕ} (hj : j < A.names.length) (hu : UsableColumn A x j) : x'[j]? = x[j]? ∧ UsableColumn A x' j := by
  have e1 := List.getElem?_eq_getElem hj
  have e2 := List.getElem?_eq_getElem (l := A.elems) (i := j) (by omega)
  have e3 := List.getElem?_eq_getElem (l := x) (i := j) (by omega)
  obtain ⟨-, -, v, hv, hp, -⟩ := hu _ _ _ e1 e2 e3
  have ha : (A.elems[j]'(by omega)).actionable = true := by
    rcases hp with hp | ⟨hp, -, -⟩
    · exact absurd hp hv
    · exact hp
  have hs := h.2 j _ e2 ha
  refine ⟨hs, fun n e xj h1 h2 h3 => hu n e xj h1 h2 (by rw [← hs]; exact h3)⟩

theorem LimitsApply.same (h : SameActionable A x x') (hel : A.elems.length = A.names.length) (hxl : x.length = A.names.length)
    (hl : LimitsApply A x) : LimitsApply A x' := by
  intro l n hn hk
  obtain ⟨h1, h2⟩ := hl l n hn hk
  have hln := (List.getElem?_eq_some_iff.mp hn).1
  refine ⟨fun xl hx => h1 xl ?_, fun j hj => ((h2 j hj).same h hel hxl (by omega)).2⟩
  rw [← ((h2 l le_rfl).same h hel hxl hln).1]; exact hx

/-- A regular situation stays regular when only features change that are not actionable. -/
theorem Regular.same (hr : b0.Reachable ext) (h : SameActionable b0.aset x x') (hxl : x.length = b0.aset.names.length)
    (hreg : Regular ext b0 x) : Regular ext b0 x' := by
  have hwf := hr.ok.aset.wf
  have get : ∀ (j : ℕ) (e : Elem K) (xj : K), b0.aset.elems[j]? = some e → x'[j]? = some xj → e.actionable = true →
      x[j]? = some xj := fun j e xj he hx ha => by rw [← h.2 j e he ha]; exact hx
  exact
    { limits := hreg.limits.same h hwf.length hxl
      aligned := hreg.aligned
      minItems := hreg.minItems
      fits := fun j e xj he hx ha => hreg.fits j e xj he (get j e xj he hx ha) ha
      apart := fun j e xj v he hx ha => hreg.apart j e xj v he (get j e xj he hx ha) ha
      pct := fun j e xj u v p q he hx ha => hreg.pct j e xj u v p q he (get j e xj he hx ha) ha
      below := fun hc j e xj v q he hx ha => hreg.below hc j e xj v q he (get j e xj he hx ha) ha }

/-- Recourse carries over to a point with the same values of actionable features and a score at least as favourable. -/
theorem recourse_same {w : List K} {t : K} {hi : ℕ} (hy : A.yDesired = 1 ∨ A.yDesired = -1) (h : SameActionable A x x')
    (hel : A.elems.length = A.names.length) (hxl : x.length = A.names.length) (hl : LimitsApply A x)
    (hscore : (A.yDesired : K) * (dot w x + t) ≤ (A.yDesired : K) * (dot w x' + t))
    (ha : IsLimitedRecourse A w t x a 1 hi) : IsLimitedRecourse A w t x' a 1 hi := by
  have hal := ha.permitted.1
  refine ⟨⟨⟨hal.trans h.1.symm, ?_⟩, ha.min, ha.max, ?_⟩, ?_⟩
  · intro j e xj aj he hx hj
    have hjx : j < x.length := by rw [← h.1]; exact (List.getElem?_eq_some_iff.mp hx).1
    have hp := ha.permitted.2 j e _ aj he (List.getElem?_eq_getElem hjx) hj
    by_cases hact : e.actionable = true
    · rw [h.get he hact (List.getElem?_eq_getElem hjx) hx]; exact hp
    · rcases hp with hp | ⟨hp, -, -⟩
      · exact Or.inl (by linarith)
      · exact absurd hp hact
  · have := ha.score
    unfold ReachesScore at this ⊢
    rw [reaches_iff hy] at this ⊢
    rw [dot_vadd _ _ _ hal.symm] at this
    rw [dot_vadd _ _ _ (hal.trans h.1.symm).symm]
    rw [mul_add] at *
    rw [mul_add] at *
    linarith
  · intro k hk
    have := ha.limits k hk
    have hn : numNonzero A x' a k.names = numNonzero A x a k.names := by
      unfold numNonzero
      refine List.countP_congr fun n hn => ?_
      have : (vadd x' a).getD (A.names.idxOf n) 0 = (vadd x a).getD (A.names.idxOf n) 0 := by
        have e1 := vadd_length x a hal
        have e2 := vadd_length x' a (hal.trans h.1.symm)
        by_cases hm : n ∈ A.names
        · have hlt := List.idxOf_lt_length_iff.mpr hm
          have hget := (((hl _ n (List.getElem?_idxOf hm) ⟨k, hk, hn⟩).2 _ le_rfl).same h hel hxl hlt).1
          rw [List.getD_eq_getElem?_getD, List.getD_eq_getElem?_getD]
          unfold vadd
          rw [List.getElem?_zipWith, List.getElem?_zipWith, hget]
        · rw [List.idxOf_of_notMem hm, List.getD_eq_default _ _ (by rw [e2, h.1]; omega), List.getD_eq_default _ _ (by omega)]
      rw [this]
    rw [hn]; exact this

theorem actionCosts_same {ct : CostType} (h : SameActionable A x x') (hp : PermittedAction A x a)
    (hc : ActionCosts ext ct A x a cs) : ActionCosts ext ct A x' a cs := by
  refine ⟨hc.1.trans h.1.symm, fun j e xj aj c he hx hj hcj => ?_⟩
  have hjx : j < x.length := by rw [← h.1]; exact (List.getElem?_eq_some_iff.mp hx).1
  have hxj := List.getElem?_eq_getElem hjx
  obtain ⟨k1, k2⟩ := hc.2 j e _ aj c he hxj hj hcj
  refine ⟨k1, fun h0 => ?_⟩
  have hact : e.actionable = true := by
    rcases hp.2 j e _ aj he hxj hj with hp | ⟨hp, -, -⟩
    · exact absurd (by linarith) h0
    · exact hp
  rw [h.get he hact hxj hx]
  exact k2 h0

/-- **C119**, cost type `max`, in regular situations and for two denied points: the cost for the second point exceeds the cost
for the first by less than every cost step, and not at all if distinct costs are at least a cost step apart. -/
theorem C119_max (hso : SetOrderOk ext) (hlog : LogOk ext) (ho : o.Exact) (ho' : o'.Exact) (hr : b0.Reachable ext)
    (hct : b0.costType = .max) (hs : SameActionable b0.aset x x') (hreg : Regular ext b0 x)
    (hden : Denied b0 x) (hden' : Denied b0 x')
    (hscore : (b0.aset.yDesired : K) * (dot b0.coefs x + b0.intercept) ≤
      (b0.aset.yDesired : K) * (dot b0.coefs x' + b0.intercept))
    (hx : b0.setX ext x = (b1, .ok ())) (hb : b1.Refitted o b2) (hf : b2.fit o = .ok (b3, i)) (hi : i.feasible = true)
    (hxd : b0.setX ext x' = (d1, .ok ())) (hd : d1.Refitted o' d2) (hfd : d2.fit o' = .ok (d3, i')) :
    i'.feasible = true ∧ ∃ c c', i.cost = .fin c ∧ i'.cost = .fin c' ∧ ∀ γ, CostStep ext b0 x γ → c' < c + γ ∧
      ((∀ g g', SomeMoveCost ext b0 x g → SomeMoveCost ext b0 x g' → g < g' → γ ≤ g' - g) → c' ≤ c) := by
  have hwf := hr.ok.aset.wf
  have hxl : x.length = b0.aset.names.length := by
    obtain ⟨feats, h1, -⟩ := Posed.setX hso hr.ok hx
    exact (buildInfo_spec hso hr.ok h1).2.1
  have hi' := (C119_better hso ho ho' hr hr rfl rfl rfl rfl rfl hs hscore hx hb hf hi hxd hd hfd).1
  obtain ⟨c, a, cs, k1, -, -, k4, k5, k6, k7, -⟩ := C27_max_partial hso hlog ho hr hreg hden hct hx hb hf hi
  have hreg' := hreg.same hr hs hxl
  obtain ⟨c', a', cs', g1, -, -, -, -, -, -, g8⟩ := C27_max_partial hso hlog ho' hr hreg' hden' hct hxd hd hfd hi'
  obtain ⟨q1, q2⟩ := g8 a cs c (recourse_same hwf.y hs hwf.length hxl hreg.limits hscore k4)
    (actionCosts_same hs k4.permitted k5) k6 k7
  -- costs of changes are the same at both points
  have hget : ∀ {j : ℕ} {e : Elem K} {xj v : K}, b0.aset.elems[j]? = some e → Permitted e xj v → v ≠ xj →
      e.actionable = true := by
    intro j e xj v he hp hv
    rcases hp with hp | ⟨hp, -, -⟩
    · exact absurd hp hv
    · exact hp
  refine ⟨hi', c, c', k1, g1, fun γ hγ => ?_⟩
  have hγ' : CostStep ext b0 x' γ := by
    obtain ⟨j, n, e, xj, w, u, v, g, h, e1, e2, e3, e4, e5, e6, e7, e8⟩ := hγ
    exact ⟨j, n, e, xj, w, u, v, g, h, e1, e2, by rw [hs.2 j e e2 (hget e2 e6 e7)]; exact e3, e4, e5, e6, e7, e8⟩
  refine ⟨q1 γ hγ', fun hsp => q2 γ hγ' fun g g' h h' => hsp g g' ?_ ?_⟩
  · obtain ⟨j, e, xj, v, e1, e2, e3, e4, e5⟩ := h
    exact ⟨j, e, xj, v, e1, by rw [← hs.2 j e e1 (hget e1 e3 e4)]; exact e2, e3, e4, e5⟩
  · obtain ⟨j, e, xj, v, e1, e2, e3, e4, e5⟩ := h'
    exact ⟨j, e, xj, v, e1, by rw [← hs.2 j e e1 (hget e1 e3 e4)]; exact e2, e3, e4, e5⟩

variable {ι : Type} {ad ad' ad2 : Auditor K} {X X' : List (ι × List K)} {T T' : List (ι × AuditRow K)} {y y' : Int}
  {k k' : ℕ} {l l' m m' : ι} {row row' : AuditRow K}

/-- **C119**, audits.  In the tables of an auditor, by any exact solvers, take two people who agree at all features that can
change, the score of the second being at least as favourable.  If the first has recourse, the second already has the outcome or
has recourse.  In regular situations, if both are denied, the cost entered for the second exceeds that of the first by less than every
cost step, and not at all if distinct costs are at least a cost step apart. -/
theorem C119_audit (hso : SetOrderOk ext) (hlog : LogOk ext) (ho : o.Exact) (ho' : o'.Exact) (hr : ad.Reachable ext)
    (h : ad.audit ext o X y = (ad', .ok T)) (h' : ad.audit ext o' X' y' = (ad2, .ok T'))
    (hX : X[k]? = some (l, x)) (hT : T[k]? = some (m, row)) (hX' : X'[k']? = some (l', x')) (hT' : T'[k']? = some (m', row'))
    (hs : SameActionable ad.builder.aset x x')
    (hscore : (ad.builder.aset.yDesired : K) * (dot ad.coefs x + ad.intercept) ≤
      (ad.builder.aset.yDesired : K) * (dot ad.coefs x' + ad.intercept))
    (hrow : row.feasible = some true) :
    (HasOutcome y' ad.coefs ad.intercept x' ∧ row' = ⟨none, .nan⟩) ∨ row'.feasible = some true ∧
      (Regular ext ad.builder x → Denied ad.builder x → Denied ad.builder x' →
        ∃ c c', row.cost = .fin c ∧ row'.cost = .fin c' ∧ ∀ γ, CostStep ext ad.builder x γ → c' < c + γ ∧
          ((∀ g g', SomeMoveCost ext ad.builder x g → SomeMoveCost ext ad.builder x g' → g < g' → γ ≤ g' - g) → c' ≤ c)) := by
  obtain ⟨e1, e2⟩ := audit_entry hr h hX hT
  obtain ⟨f1, f2⟩ := audit_entry hr h' hX' hT'
  by_cases hh' : HasOutcome y' ad.coefs ad.intercept x'
  · exact Or.inl ⟨hh', f1 hh'⟩
  right
  have hh : ¬ HasOutcome y ad.coefs ad.intercept x := by
    intro hh
    rw [e1 hh] at hrow; cases hrow
  obtain ⟨hb, hw, ht, hct⟩ := hr.inv
  obtain ⟨n, b1, b3, i, k1, k2, rfl⟩ := e2 hh
  obtain ⟨n', d1, d3, i', g1, g2, rfl⟩ := f2 hh'
  have hi : i.feasible = true := Option.some.inj hrow
  have hscore' : (ad.builder.aset.yDesired : K) * (dot ad.builder.coefs x + ad.builder.intercept) ≤
      (ad.builder.aset.yDesired : K) * (dot ad.builder.coefs x' + ad.builder.intercept) := by rw [hw, ht]; exact hscore
  have hi' := (C119_better hso (ho.at n) (ho'.at n') hb hb rfl rfl rfl rfl rfl hs hscore' k1 .refl k2 hi g1 .refl g2).1
  refine ⟨congrArg some hi', fun hreg hden hden' => ?_⟩
  exact (C119_max hso hlog (ho.at n) (ho'.at n') hb hct hs hreg hden hden' hscore' k1 .refl k2 hi g1 .refl g2).2

/-- **C119**, audits, equal scores: people who agree at all features that can change and have the same score get the same entry in
the column `feasible` (which is empty for both, if they have the outcome asked for). -/
theorem C119_audit_alike (hso : SetOrderOk ext) (ho : o.Exact) (ho' : o'.Exact) (hr : ad.Reachable ext)
    (h : ad.audit ext o X y = (ad', .ok T)) (h' : ad.audit ext o' X' y = (ad2, .ok T'))
    (hX : X[k]? = some (l, x)) (hT : T[k]? = some (m, row)) (hX' : X'[k']? = some (l', x')) (hT' : T'[k']? = some (m', row'))
    (hs : SameActionable ad.builder.aset x x') (hscore : dot ad.coefs x' = dot ad.coefs x) :
    row'.feasible = row.feasible := by
  obtain ⟨e1, e2⟩ := audit_entry hr h hX hT
  obtain ⟨f1, f2⟩ := audit_entry hr h' hX' hT'
  have hiff : HasOutcome y ad.coefs ad.intercept x' ↔ HasOutcome y ad.coefs ad.intercept x := by
    unfold HasOutcome; rw [hscore]
  by_cases hh : HasOutcome y ad.coefs ad.intercept x
  · rw [e1 hh, f1 (hiff.mpr hh)]
  obtain ⟨hb, hw, ht, hct⟩ := hr.inv
  obtain ⟨n, b1, b3, i, k1, k2, rfl⟩ := e2 hh
  obtain ⟨n', d1, d3, i', g1, g2, rfl⟩ := f2 fun hh' => hh (hiff.mp hh')
  exact congrArg some (C119_alike hso (ho.at n) (ho'.at n') hb hb rfl rfl rfl rfl rfl hs (by rw [hw, ht, hscore])
    k1 .refl k2 g1 .refl g2).1

end Recourse
