import Verif.Lemmas.Audit
import Verif.Props.Subset

/-!
# C44 - C48: audits
-/

set_option linter.unusedSectionVars false

namespace Recourse

variable {K : Type} [Field K] [LinearOrder K] [IsStrictOrderedRing K] [FloorRing K]
  {ext : Ext K} {o : Oracle K} {ad ad' : Auditor K} {y : Int}
  {ι : Type} {X : List (ι × List K)} {T : List (ι × AuditRow K)}

/-! ## C44 -/

/-- **C44.**  A successful audit has one row per row of `X`, with the labels of `X` in the order of `X`, and
equal rows get equal entries: for every solver, whatever was audited before. -/
theorem C44_rows (hr : ad.Reachable ext) (h : ad.audit ext o X y = (ad', .ok T)) :
    T.map (·.1) = X.map (·.1) ∧
    ∀ (k l : ℕ) (p q : ι × List K) (e f : ι × AuditRow K), X[k]? = some p → X[l]? = some q →
      T[k]? = some e → T[l]? = some f → p.2 = q.2 → e.2 = f.2 := by
  obtain ⟨-, -, -, -, -, g, rfl, -⟩ := audit_ok hr.inv.1 h
  refine ⟨by rw [List.map_map]; rfl, ?_⟩
  intro k l p q e f hp hq he hf hpq
  rw [List.getElem?_map, hp] at he
  rw [List.getElem?_map, hq] at hf
  cases he; cases hf
  dsimp only
  rw [hpq]

/-! ## C45 -/

/-- The entry of a row. -/
theorem audit_entry (hr : ad.Reachable ext) (h : ad.audit ext o X y = (ad', .ok T)) {k : ℕ} {l l' : ι}
    {x : List K} {row : AuditRow K} (hX : X[k]? = some (l, x)) (hT : T[k]? = some (l', row)) :
    (HasOutcome y ad.coefs ad.intercept x → row = ⟨none, .nan⟩) ∧
    (¬ HasOutcome y ad.coefs ad.intercept x → Entry ext o ad.builder x row) := by
  obtain ⟨-, -, -, -, -, g, rfl, hg⟩ := audit_ok hr.inv.1 h
  rw [List.getElem?_map, hX] at hT
  cases hT
  obtain ⟨h1, h2⟩ := hg _ (List.mem_of_getElem? hX)
  exact ⟨fun hh => h1 ((selected_false_iff ..).mpr hh), fun hh => h2 ((selected_iff ..).mpr hh)⟩

/-- **C45.**  Rows that already have the outcome asked for have `feasible = NaN` and `cost = NaN`.  Every
other row has either `feasible = False` and `cost = Inf`, and then (in regular situations) there is no
recourse that respects the subset limits; or `feasible = True` and as cost a positive number that is the largest cost of an actual recourse
action, which (in regular situations) respects the subset limits and exceeds the largest cost of no other recourse by a cost step. -/
theorem C45_entries (hso : SetOrderOk ext) (hlog : LogOk ext) (ho : o.Exact) (hr : ad.Reachable ext)
    (h : ad.audit ext o X y = (ad', .ok T)) {k : ℕ} {l l' : ι} {x : List K} {row : AuditRow K}
    (hX : X[k]? = some (l, x)) (hT : T[k]? = some (l', row)) :
    (HasOutcome y ad.coefs ad.intercept x → row.feasible = none ∧ row.cost = .nan) ∧
    (¬ HasOutcome y ad.coefs ad.intercept x →
      (row.feasible = some false ∧ row.cost = .inf ∧
        (Regular ext ad.builder x → Denied ad.builder x →
          ¬ ∃ a, IsLimitedRecourse ad.builder.aset ad.coefs ad.intercept x a 1 ad.builder.maxItems)) ∨
      (row.feasible = some true ∧ ∃ a cs c, row.cost = .fin c ∧ 0 < c ∧
        IsRecourse ad.builder.aset ad.coefs ad.intercept x a (max ad.builder.minItems 1) ad.builder.maxItems ∧
        ActionCosts ext .max ad.builder.aset x a cs ∧ c ∈ cs ∧ (∀ v ∈ cs, v ≤ c) ∧
        (Regular ext ad.builder x → RespectsLimits ad.builder.aset x a) ∧
        (Regular ext ad.builder x → Denied ad.builder x → ∀ a' cs' M',
          IsLimitedRecourse ad.builder.aset ad.coefs ad.intercept x a' 1 ad.builder.maxItems →
          ActionCosts ext .max ad.builder.aset x a' cs' → M' ∈ cs' → (∀ v ∈ cs', v ≤ M') →
          ∀ γ, CostStep ext ad.builder x γ → c < M' + γ))) := by
  obtain ⟨hb, hw, ht, hct⟩ := hr.inv
  obtain ⟨h1, h2⟩ := audit_entry hr h hX hT
  refine ⟨fun hh => by rw [h1 hh]; exact ⟨rfl, rfl⟩, fun hh => ?_⟩
  obtain ⟨n, b1, b', i, e1, e2, rfl⟩ := h2 hh
  have ho' := ho.at n
  cases hi : i.feasible with
  | false =>
    left
    refine ⟨rfl, ?_, fun hreg hden => ?_⟩
    · obtain ⟨feats, -, hfo, h3⟩ := Posed.setX hso hb.ok e1
      obtain ⟨-, -, rfl⟩ := fit_ok e2
      rcases h3.solved hfo ho'.1 with ⟨-, he, -⟩ | ⟨σ, κ, -, -, -, -, hrep, -⟩
      · rw [he]; rfl
      · rw [hrep.feasible] at hi; cases hi
    · have := (C25_no_recourse hso hlog ho' hb hreg hden e1 .refl e2).1.mp hi
      rwa [hw, ht] at this
  | true =>
    right
    refine ⟨rfl, ?_⟩
    obtain ⟨a, ha, hrec⟩ := C22_actionable hso ho'.1 hb e1 .refl e2 hi
    obtain ⟨a', cs, c, k1, k2, k3, k4, k5, k6, -⟩ := C28_costs hso hlog ho' hb
      (fun hl => by rw [hct] at hl; cases hl) e1 .refl e2 hi
    rw [ha] at k1; obtain rfl := Option.some.inj k1
    obtain ⟨hc, hmax⟩ := k6 hct
    have hpos : 0 < c := by
      -- some feature is changed, so its cost is positive
      have hn : 1 ≤ numChanged a := le_trans (le_max_right _ _) hrec.min
      unfold numChanged at hn
      obtain ⟨v, hv, hv0⟩ := List.countP_pos_iff.mp hn
      obtain ⟨j, hj⟩ := List.mem_iff_getElem?.mp hv
      have hjl : j < cs.length := by
        have := (List.getElem?_eq_some_iff.mp hj).1
        rw [hrec.permitted.1] at this
        rw [k4.1]; exact this
      have hcj := List.getElem?_eq_getElem hjl
      have := (k5 j v _ hj hcj).2 (by simpa using hv0)
      exact lt_of_lt_of_le this (hmax _ (List.getElem_mem hjl))
    rw [hw, ht] at hrec
    rw [hct] at k4
    have hlim : Regular ext ad.builder x → RespectsLimits ad.builder.aset x a := by
      intro hreg
      obtain ⟨a3, h3, h4⟩ := C35_subset_partial hso ho'.1 hb e1 .refl e2 hi hreg.limits
      rw [ha] at h3; cases h3
      exact h4
    refine ⟨a, cs, c, k3, hpos, hrec, k4, hc, hmax, hlim, fun hreg hden a' cs' M' har' hcs' hM hM' γ hγ => ?_⟩
    obtain ⟨c2, a2, cs2, g1, -, -, -, -, -, -, g8⟩ := C27_max_partial hso hlog ho' hb hreg hden hct e1 .refl e2 hi
    rw [k3] at g1; cases g1
    rw [hw, ht, hct] at g8
    exact (g8 a' cs' M' har' hcs' hM hM').1 γ hγ

/-! ## C46 -/

/-- The full C46 is false: whenever every row already has the outcome asked for, `audit` raises `KeyError`. -/
theorem C46_approved_refuted (hr : ad.Reachable ext) (hne : X ≠ [])
    (hlen : ∀ p ∈ X, p.2.length = ad.coefs.length) (hy : y = 1 ∨ y = -1 ∨ y = 0)
    (hall : ∀ p ∈ X, HasOutcome y ad.coefs ad.intercept p.2) : (ad.audit ext o X y).2 = .error .key := by
  cases hh : ad.audit ext o X y with
  | mk ad1 res =>
    cases res with
    | ok T =>
      obtain ⟨-, -, ⟨p, hp, hs⟩, -⟩ := audit_ok hr.inv.1 hh
      exact absurd (hall p hp) ((selected_iff ..).mp hs)
    | error er =>
      obtain ⟨-, -, h | ⟨-, h⟩ | ⟨p, hp, hs, -⟩⟩ := audit_error hr.inv.1 hh
      · obtain ⟨-, -, h | ⟨p, hp, h⟩ | h⟩ := h
        · exact absurd h hne
        · exact absurd (hlen p hp) h
        · exact absurd hy h
      · rw [h]
      · exact absurd (hall p hp) ((selected_iff ..).mp hs)

/-- **C46** (partial).  If at least one row lacks the outcome asked for, and every such row can be assigned to
the builder, `audit` succeeds.  Missing from the full property: matrices all of whose rows have the outcome
(`C46_approved_refuted`). -/
theorem C46_succeeds_partial (hr : ad.Reachable ext) (hlen : ∀ p ∈ X, p.2.length = ad.coefs.length)
    (hy : y = 1 ∨ y = -1 ∨ y = 0) (hsome : ∃ p ∈ X, ¬ HasOutcome y ad.coefs ad.intercept p.2)
    (hok : ∀ p ∈ X, ¬ HasOutcome y ad.coefs ad.intercept p.2 → (ad.builder.setX ext p.2).2 = .ok ()) :
    ∃ ad' T, ad.audit ext o X y = (ad', .ok T) := by
  obtain ⟨p0, hp0, hn0⟩ := hsome
  cases hh : ad.audit ext o X y with
  | mk ad1 res =>
    cases res with
    | ok T => exact ⟨ad1, T, rfl⟩
    | error er =>
      exfalso
      obtain ⟨-, -, h | ⟨h, -⟩ | ⟨p, hp, hs, he⟩⟩ := audit_error hr.inv.1 hh
      · obtain ⟨-, -, h | ⟨p, hp, h⟩ | h⟩ := h
        · rw [h] at hp0; simp at hp0
        · exact absurd (hlen p hp) h
        · exact absurd hy h
      · exact hn0 ((selected_false_iff ..).mp (h p0 hp0))
      · rw [hok p hp ((selected_iff ..).mp hs)] at he; cases he

/-! ## C48 -/

/-- On the program posed by one assignment all exact solvers agree about feasibility. -/
theorem fit_feasible_agree (hso : SetOrderOk ext) {b0 b1 b2 b2' : Builder K} {x : List K} {i i' : Info K}
    {o' : Oracle K} (hb : b0.Reachable ext) (ho : o.Exact) (ho' : o'.Exact) (hx : b0.setX ext x = (b1, .ok ()))
    (hf : b1.fit o = .ok (b2, i)) (hf' : b1.fit o' = .ok (b2', i')) : i.feasible = i'.feasible := by
  obtain ⟨feats, -, h2, h3⟩ := Posed.setX hso hb.ok hx
  obtain ⟨-, -, rfl⟩ := fit_ok hf
  obtain ⟨-, -, rfl⟩ := fit_ok hf'
  rcases h3.solved h2 ho.1 with ⟨-, he, hn⟩ | ⟨σ, κ, -, -, hk, hP, hrep, -⟩ <;>
    rcases h3.solved h2 ho'.1 with ⟨-, he', hn'⟩ | ⟨σ', κ', -, -, hk', hP', hrep', -⟩
  · rw [he, he']
  · exact absurd ⟨κ', hk', hP'⟩ (hn ho.2)
  · exact absurd ⟨κ, hk, hP⟩ (hn' ho'.2)
  · rw [hrep.feasible, hrep'.feasible]

/-- **C48.**  Audits do not depend on the other rows: if a point occurs in two matrices audited from the same
state (or one after the other by the same auditor), its entries agree: `feasible` for all exact solvers,
both columns for solvers that answer equal programs equally.  In particular permuting or duplicating rows
permutes or duplicates the entries. -/
theorem C48_order (hr : ad.Reachable ext) {X' : List (ι × List K)} {T' : List (ι × AuditRow K)} {o' : Oracle K}
    {ad1 ad2 : Auditor K} (h : ad.audit ext o X y = (ad1, .ok T))
    (h' : ad.audit ext o' X' y = (ad2, .ok T') ∨ ad1.audit ext o' X' y = (ad2, .ok T'))
    {k k' : ℕ} {l l' l1 l1' : ι} {x : List K} {row row' : AuditRow K} (hX : X[k]? = some (l, x))
    (hX' : X'[k']? = some (l', x)) (hT : T[k]? = some (l1, row)) (hT' : T'[k']? = some (l1', row')) :
    (SetOrderOk ext → o.Exact → o'.Exact → row.feasible = row'.feasible) ∧
    (o.Steady → o' = o → row = row') := by
  -- the second audit, too, gives what fitting on the builder of `ad` gives
  have hent' : (HasOutcome y ad.coefs ad.intercept x → row' = ⟨none, .nan⟩) ∧
      (¬ HasOutcome y ad.coefs ad.intercept x → Entry ext o' ad.builder x row') := by
    rcases h' with h' | h'
    · exact audit_entry hr h' hX' hT'
    · obtain ⟨-, -, -, hu, he, -⟩ := audit_ok hr.inv.1 h
      have hr1 : ad1.Reachable ext := by
        have := Auditor.Reachable.audit o X y hr
        rwa [h] at this
      obtain ⟨g1, g2⟩ := audit_entry hr1 h' hX' hT'
      have hc1 : ad1.coefs = ad.coefs := by rw [he]
      have ht1 : ad1.intercept = ad.intercept := by rw [he]
      rw [hc1, ht1] at g1 g2
      refine ⟨g1, fun hh => ?_⟩
      obtain ⟨n, b1, b', i, e1, e2, rfl⟩ := g2 hh
      obtain ⟨n', c1, c', j, f1, f2, hj⟩ := hu.entry hr.inv.1 e1 e2
      exact ⟨n, c1, c', j, f1, f2, hj⟩
  obtain ⟨h1, h2⟩ := audit_entry hr h hX hT
  obtain ⟨h1', h2'⟩ := hent'
  by_cases hh : HasOutcome y ad.coefs ad.intercept x
  · rw [h1 hh, h1' hh]; exact ⟨fun _ _ _ => rfl, fun _ _ => rfl⟩
  · obtain ⟨n, b1, b', i, e1, e2, rfl⟩ := h2 hh
    obtain ⟨n', b1', b2', i', e1', e2', rfl⟩ := h2' hh
    rw [e1] at e1'; cases e1'
    refine ⟨fun hso ho ho' => ?_, fun ho he => ?_⟩
    · have := fit_feasible_agree hso hr.inv.1 (ho.at n) (ho'.at n') e1 e2 e2'
      dsimp only
      rw [this]
    · subst he
      rw [ho.at] at e2 e2'
      rw [e2] at e2'; cases e2'
      rfl

/-- Auditing a matrix made of rows of an audited matrix succeeds if it contains a row without the outcome. -/
theorem C48_subset_succeeds (hr : ad.Reachable ext) {X' : List (ι × List K)} {o' : Oracle K}
    (h : ad.audit ext o X y = (ad', .ok T)) (hsub : ∀ p ∈ X', ∃ q ∈ X, q.2 = p.2)
    (hsome : ∃ p ∈ X', ¬ HasOutcome y ad.coefs ad.intercept p.2) :
    ∃ ad2 T', ad.audit ext o' X' y = (ad2, .ok T') := by
  obtain ⟨hlen, hy, -, -, -, g, -, hg⟩ := audit_ok hr.inv.1 h
  refine C46_succeeds_partial hr ?_ hy hsome ?_
  · intro p hp
    obtain ⟨q, hq, he⟩ := hsub p hp
    rw [← he]; exact hlen q hq
  · intro p hp hn
    obtain ⟨q, hq, he⟩ := hsub p hp
    rw [← he] at hn ⊢
    obtain ⟨n, b1, b', i, e1, -⟩ := (hg q hq).2 ((selected_iff ..).mpr hn)
    rw [e1]

/-! ## C47 -/

/-- **C47** (partial).  If the action set asks for the same outcome as `audit`, a row reported feasible has
recourse to the (closed) side asked for.  Missing from the full property: action sets with another desired
outcome (`C47_undesired_refuted`). -/
theorem C47_outcome_partial (hso : SetOrderOk ext) (hlog : LogOk ext) (ho : o.Exact) (hr : ad.Reachable ext)
    (hy : ad.builder.aset.yDesired = if 0 < y then 1 else -1)
    (h : ad.audit ext o X y = (ad', .ok T)) {k : ℕ} {l l' : ι} {x : List K} {row : AuditRow K}
    (hX : X[k]? = some (l, x)) (hT : T[k]? = some (l', row)) (hf : row.feasible = some true) :
    ¬ HasOutcome y ad.coefs ad.intercept x ∧
    ∃ a, PermittedAction ad.builder.aset x a ∧ ReachesScore y ad.coefs ad.intercept x a := by
  obtain ⟨h1, h2⟩ := C45_entries hso hlog ho hr h hX hT
  have hno : ¬ HasOutcome y ad.coefs ad.intercept x := by
    intro hh
    rw [(h1 hh).1] at hf; cases hf
  refine ⟨hno, ?_⟩
  rcases h2 hno with ⟨h3, -⟩ | ⟨-, a, cs, c, -, -, hrec, -⟩
  · rw [h3] at hf; cases hf
  · refine ⟨a, hrec.permitted, ?_⟩
    have := hrec.score
    unfold ReachesScore at this ⊢
    rw [hy] at this
    by_cases h0 : 0 < y
    · rw [if_pos h0] at this ⊢; simpa using this
    · rw [if_neg h0] at this ⊢; simpa using this

/-! ## Concrete auditors -/

/-- The calls `A = ActionSet(X, names)`, `RecourseAuditor(A, w, t)`. -/
def exAuditorE (be : Backend) (X : List (List ℚ)) (names : List String) (w : List ℚ) (t : ℚ) :
    Except Err (Auditor ℚ) := do
  let A ← mkActionSet X names 1 [] defaultBounds (.str "relative")
  mkAuditor be A w t

theorem exAuditorE_reachable {ext : Ext ℚ} {be : Backend} {X : List (List ℚ)} {names : List String} {w : List ℚ}
    {t : ℚ} {ad : Auditor ℚ} (h : exAuditorE be X names w t = .ok ad) : ad.Reachable ext := by
  unfold exAuditorE at h
  obtain ⟨A, hA, h⟩ := bind_ok_iff.mp h
  exact .mk (.mk hA) h

instance {y : Int} {w : List ℚ} {t : ℚ} {x : List ℚ} : Decidable (HasOutcome y w t x) := by
  unfold HasOutcome; infer_instance

/-- Non-vacuity of C44 - C48: three people, two of them equal and denied, one approved.  Every exact solver
gives the two denied ones `feasible = True`, the approved one NaN. -/
theorem C45_example (be : Backend) : ∃ ad : Auditor ℚ, ad.Reachable exExt ∧
    Regular exExt ad.builder [0, 0] ∧ Denied ad.builder [0, 0] ∧
    ∀ o : Oracle ℚ, o.Exact → ∃ ad' T,
      ad.audit exExt o [("p", [0, 0]), ("q", [1, 1]), ("r", [0, 0])] 1 = (ad', .ok T) ∧
      T.map (fun e => (e.1, e.2.feasible)) = [("p", some true), ("q", none), ("r", some true)] ∧
      ∃ e, T[1]? = some e ∧ e.2.cost = .nan := by
  have key : ∀ be, ∃ ad : Auditor ℚ, exAuditorE be [[0, 0], [1, 1]] ["a", "b"] [1, 2] (-1) = .ok ad ∧
      ad.coefs.length = 2 ∧
      regularB exExt ad.builder [0, 0] = true ∧ Denied ad.builder [0, 0] ∧
      ¬ HasOutcome 1 ad.coefs ad.intercept [0, 0] ∧ HasOutcome 1 ad.coefs ad.intercept [1, 1] ∧
      (ad.builder.setX exExt [0, 0]).2 = .ok () ∧
      admitted (ad.builder.buildArgs [0, 0] (ad.builder.setX exExt [0, 0]).1.feats) (fun _ => true) ≠ [] := by
    intro be; cases be <;> decide +kernel
  obtain ⟨ad, h1, h2, h3, h4, h5, h6, h7, h8⟩ := key be
  have hr : ad.Reachable exExt := exAuditorE_reachable h1
  obtain ⟨hb, hw, ht, -⟩ := hr.inv
  have hreg := regular_of_b hb.ok exExt_pos h3
  refine ⟨ad, hr, hreg, h4, fun o ho => ?_⟩
  have hsome : ∃ p ∈ [("p", [0, 0]), ("q", [1, 1]), ("r", [(0 : ℚ), 0])],
      ¬ HasOutcome 1 ad.coefs ad.intercept p.2 := ⟨("p", [0, 0]), by simp, h5⟩
  obtain ⟨ad', T, hT⟩ := C46_succeeds_partial (o := o) (y := 1) (ext := exExt) hr
    (X := [("p", [0, 0]), ("q", [1, 1]), ("r", [0, 0])])
    (by intro p hp; simp at hp; rcases hp with rfl | rfl | rfl <;> simp [h2]) (Or.inl rfl) hsome
    (by
      intro p hp hn
      simp at hp
      rcases hp with rfl | rfl | rfl
      · exact h7
      · exact absurd h6 hn
      · exact h7)
  refine ⟨ad', T, hT, ?_⟩
  -- a recourse exists at the denied point
  obtain ⟨b1, hs⟩ : ∃ b1, ad.builder.setX exExt [0, 0] = (b1, .ok ()) := ⟨_, Prod.ext rfl h7⟩
  obtain ⟨feats, g1, -, g3⟩ := Posed.setX exExt_order hb.ok hs
  rw [hs, show b1.feats = feats from g3.feats] at h8
  obtain ⟨κ, hκ⟩ := List.exists_mem_of_ne_nil _ h8
  have hrec := choice_limited exExt_order hb.ok g1 hreg (admitted_ok hκ).1
  rw [hw, ht] at hrec
  have hlab := (C44_rows hr hT).1
  have hlen : T.length = 3 := by simpa using congrArg List.length hlab
  match T, hlen with
  | [(l0, r0), (l1, r1), (l2, r2)], _ =>
    simp only [List.map_cons, List.map_nil, List.cons.injEq, and_true] at hlab
    obtain ⟨rfl, rfl, rfl⟩ := hlab
    have den : ∀ (k : ℕ) (l : String) (r : AuditRow ℚ), [("p", [0, 0]), ("q", [1, 1]), ("r", [(0 : ℚ), 0])][k]? = some (l, [0, 0]) →
        [("p", r0), ("q", r1), ("r", r2)][k]? = some (l, r) → r.feasible = some true := by
      intro k l r hX hTk
      rcases (C45_entries exExt_order exExt_log ho hr hT hX hTk).2 h5 with ⟨-, -, hno⟩ | ⟨h, -⟩
      · exact absurd ⟨_, hrec⟩ (hno hreg h4)
      · exact h
    have e1 := (C45_entries exExt_order exExt_log ho hr hT (k := 1) (l := "q") (x := [1, 1]) (l' := "q") (row := r1) rfl rfl).1 h6
    refine ⟨?_, ("q", r1), rfl, e1.2⟩
    simp only [List.map_cons, List.map_nil]
    rw [den 0 "p" r0 rfl rfl, den 2 "r" r2 rfl rfl, e1.1]

/-- Non-vacuity of `C46_approved_refuted`: one approved person. -/
theorem C46_example (be : Backend) : ∃ ad : Auditor ℚ, ad.Reachable exExt ∧
    HasOutcome 1 ad.coefs ad.intercept [1, 1] ∧
    ∀ o : Oracle ℚ, (ad.audit exExt o [("p", [1, 1])] 1).2 = .error .key := by
  have key : ∀ be, ∃ ad : Auditor ℚ, exAuditorE be [[0, 0], [1, 1]] ["a", "b"] [1, 2] (-1) = .ok ad ∧
      ad.coefs.length = 2 ∧ HasOutcome 1 ad.coefs ad.intercept [1, 1] := by
    intro be; cases be <;> decide +kernel
  obtain ⟨ad, h1, h2, h3⟩ := key be
  have hr : ad.Reachable exExt := exAuditorE_reachable h1
  refine ⟨ad, hr, h3, fun o => C46_approved_refuted hr (by simp) ?_ (Or.inl rfl) ?_⟩
  · intro p hp; simp at hp; subst hp; simp [h2]
  · intro p hp; simp at hp; subst hp; exact h3

/-- The full C47 is false: the score is positive whatever the one feature's value is, so nobody can get the
outcome -1; yet `audit(X, y_desired = -1)` with every exact solver reports `feasible = True`, because the
program asks for +1. -/
theorem C47_undesired_refuted (be : Backend) : ∃ ad : Auditor ℚ, ad.Reachable exExt ∧
    (¬ ∃ a, PermittedAction ad.builder.aset [0] a ∧ ReachesScore (-1) ad.coefs ad.intercept [0] a) ∧
    ∀ o : Oracle ℚ, o.Exact → ∃ ad' row,
      ad.audit exExt o [((), [0])] (-1) = (ad', .ok [((), row)]) ∧ row.feasible = some true := by
  have key : ∀ be, ∃ ad : Auditor ℚ, exAuditorE be [[0], [1]] ["a"] [1] 1 = .ok ad ∧
      ad.coefs = [1] ∧ ad.intercept = 1 ∧ ad.builder.minItems = 0 ∧
      ad.builder.aset.elems.map (fun e => e.grid.vals) = [[0, 1]] ∧
      (ad.builder.setX exExt [0]).2 = .ok () ∧
      admitted (ad.builder.buildArgs [0] (ad.builder.setX exExt [0]).1.feats) (fun _ => true) ≠ [] := by
    intro be; cases be <;> decide +kernel
  obtain ⟨ad, h1, h2, h2', hmin, hgr, h7, h8⟩ := key be
  have hr : ad.Reachable exExt := exAuditorE_reachable h1
  obtain ⟨hb, hw, ht, -⟩ := hr.inv
  have hno : ¬ HasOutcome (-1) ad.coefs ad.intercept [0] := by rw [h2, h2']; decide +kernel
  refine ⟨ad, hr, ?_, fun o ho => ?_⟩
  · rintro ⟨a, hp, hs⟩
    match a, hp.1 with
    | [a0], _ =>
      have hel : ad.builder.aset.elems.length = 1 := by simpa using congrArg List.length hgr
      obtain ⟨e, he⟩ := List.length_eq_one_iff.mp hel
      · rw [he] at hgr
        have hg : e.grid.vals = [0, 1] := by simpa using hgr
        have := hp.2 0 e 0 a0 (by rw [he]; rfl) rfl rfl
        have hv : a0 = 0 ∨ a0 = 1 := by
          rcases this with h | ⟨-, h, -⟩
          · left; linarith
          · rw [hg] at h
            simpa using h
        unfold ReachesScore at hs
        rw [h2, h2'] at hs
        simp [dot, vadd] at hs
        rcases hv with rfl | rfl <;> norm_num at hs
  · obtain ⟨ad', T, hT⟩ := C46_succeeds_partial (o := o) (y := -1) (ext := exExt) hr (X := [((), [0])])
      (by intro p hp; simp at hp; subst hp; simp [h2]) (by simp) ⟨((), [0]), by simp, hno⟩
      (by intro p hp hn; simp at hp; subst hp; exact h7)
    have hlab := (C44_rows hr hT).1
    have hlen : T.length = 1 := by simpa using congrArg List.length hlab
    match T, hlen with
    | [(⟨⟩, row)], _ =>
      refine ⟨ad', row, hT, ?_⟩
      obtain ⟨n, b1, b', i, e1, e2, rfl⟩ := (audit_entry hr hT (k := 0) (l := ()) (x := [0]) (l' := ()) (row := row) rfl rfl).2 hno
      obtain ⟨c1, feats, f1, -, f2, c2, j, f3, f4⟩ := exSolve exExt_order hb h7 (ho.at n)
      rw [e1] at f1; cases f1
      rw [e2] at f3; cases f3
      rw [f2] at h8
      rcases f4 with ⟨h, -⟩ | ⟨κ, -, -, hf, -⟩
      · exact absurd h h8
      · dsimp only; rw [hf]

/-! ## The rows of a table -/

/-- The rows an audit table can have. -/
def AuditShaped (r : AuditRow K) : Prop :=
  r = ⟨none, .nan⟩ ∨ r = ⟨some false, .inf⟩ ∨ ∃ c, r = ⟨some true, .fin c⟩

/-- Every row of every audit has one of these shapes, for every solver. -/
theorem audit_shaped (hr : ad.Reachable ext) (h : ad.audit ext o X y = (ad', .ok T)) :
    ∀ e ∈ T, AuditShaped e.2 := by
  obtain ⟨-, -, -, -, -, g, rfl, hg⟩ := audit_ok hr.inv.1 h
  intro e he
  obtain ⟨p, hp, rfl⟩ := List.mem_map.mp he
  dsimp only
  cases hs : ad.selected y p.2 with
  | false => exact Or.inl ((hg p hp).1 hs)
  | true =>
    obtain ⟨n, b1, b', i, -, e2, e3⟩ := (hg p hp).2 hs
    right
    obtain ⟨-, -, rfl⟩ := fit_ok e2
    rw [e3]
    unfold Builder.solutionInfo
    split
    · exact Or.inr ⟨_, rfl⟩
    · exact Or.inl rfl

end Recourse
