import Verif.Props.AuditSolvers
import Verif.Props.SolversEx

/-!
# Ties in audits (C95)
-/

set_option linter.unusedSectionVars false

namespace Recourse

/-- Externals for the refutation: the density of a binary column depends on its sum. -/
def ext95 : Ext ℚ :=
  { exExt with kde := fun vals => .ok fun v =>
      let c := if vals.sum ≤ 1 then 28 else if vals.sum ≤ 2 then 24 else 19
      if v = 1 then c else 40 - c }

theorem ext95_pos : ∀ vals pdf, ext95.kde vals = .ok pdf → ∀ v, 0 < pdf v := by
  intro vals pdf h v
  cases h
  dsimp only
  split_ifs <;> norm_num

/-- Four binary features; changing them costs (up to a common factor) 28, 24, 24 and 19. -/
def data95 : List (List ℚ) := [[0, 0, 0, 0], [1, 1, 1, 1], [0, 1, 1, 1], [0, 0, 0, 1]]

/-- Only the first feature is changed. -/
def onlyFirst : ℕ → ℕ := fun k => if k = 0 then 1 else 0

theorem facts95 (be be' : Backend) : ∃ A : ActionSet ℚ, exSet data95 ["a", "b", "c", "d"] = .ok A ∧
    ∃ ad : Auditor ℚ, mkAuditor be A [2, 1, 1, 1 / 8] (-2) = .ok ad ∧
    ∃ ad' : Auditor ℚ, mkAuditor be' A [2, 1, 1, 1 / 8] (-2) = .ok ad' ∧
    ((regularB ext95 ad.builder [0, 0, 0, 0] = true ∧ Denied ad.builder [0, 0, 0, 0] ∧
      (ad.builder.setX ext95 [0, 0, 0, 0]).2 = .ok () ∧ (ad'.builder.setX ext95 [0, 0, 0, 0]).2 = .ok () ∧
      ad.coefs.length = 4 ∧ ad'.coefs.length = 4 ∧ ad.builder.costType = .max ∧ ad'.builder.costType = .max ∧
      ¬ HasOutcome 1 ad.coefs ad.intercept [0, 0, 0, 0] ∧ ¬ HasOutcome 1 ad'.coefs ad'.intercept [0, 0, 0, 0] ∧
      (let p := ad.builder.buildArgs [0, 0, 0, 0] (ad.builder.setX ext95 [0, 0, 0, 0]).1.feats
       let p' := ad'.builder.buildArgs [0, 0, 0, 0] (ad'.builder.setX ext95 [0, 0, 0, 0]).1.feats
       cheapestB p onlyFirst = true ∧ cheapestB p' (pairOf 1 2) = true ∧
       choiceMax p.feats onlyFirst ≠ choiceMax p'.feats (pairOf 1 2))) ∧ True) := by
  cases be <;> cases be' <;> decide +kernel

theorem Agree.max {feats : List (Feat ℚ)} {κ κ' : ℕ → ℕ} (h : Agree feats κ κ') : choiceMax feats κ = choiceMax feats κ' := by
  have : (feats.map fun f => f.cst κ) = feats.map fun f => f.cst κ' := List.map_congr_left fun f hf => h.cst hf
  unfold choiceMax
  rw [this]

/-- An exact solver steered to a given cheapest choice, in the audit of one person. -/
theorem steer_audit {ext : Ext ℚ} (hso : SetOrderOk ext) {ad : Auditor ℚ} (hr : ad.Reachable ext) {x : List ℚ} {κ : ℕ → ℕ}
    (hx : (ad.builder.setX ext x).2 = .ok ()) (hlen : x.length = ad.coefs.length) (hct : ad.builder.costType = .max)
    (hno : ¬ HasOutcome 1 ad.coefs ad.intercept x)
    (hk : cheapestB (ad.builder.buildArgs x (ad.builder.setX ext x).1.feats) κ = true) :
    ∃ o : Oracle ℚ, o.Exact ∧ ∃ ad1, ad.audit ext o [("p", x)] 1 =
      (ad1, .ok [("p", ⟨some true, .fin (choiceMax (ad.builder.setX ext x).1.feats κ)⟩)]) := by
  obtain ⟨b1, hs⟩ : ∃ b1, ad.builder.setX ext x = (b1, .ok ()) := ⟨_, Prod.ext rfl hx⟩
  obtain ⟨feats, g1, hok, hpo⟩ := Posed.setX hso hr.inv.1.ok hs
  have hf : (ad.builder.setX ext x).1.feats = feats := by rw [hs]; exact hpo.feats
  rw [hf] at hk ⊢
  obtain ⟨k1, m1⟩ := cheapestB_ok hok hk
  obtain ⟨o, ho, hst⟩ := steer hok hpo k1 trivial fun κ' h _ => m1 κ' h
  refine ⟨o, ho, ?_⟩
  obtain ⟨ad1, T, hT⟩ := C46_succeeds_partial (o := o) (y := 1) hr (X := [("p", x)]) (by simpa using hlen)
    (Or.inl rfl) ⟨("p", x), by simp, hno⟩ (by intro p hp _; simp at hp; rw [hp]; exact hx)
  refine ⟨ad1, ?_⟩
  have hlab := (C44_rows hr hT).1
  have hlen : T.length = 1 := by simpa using congrArg List.length hlab
  match T, hlen with
  | [(l0, r0)], _ =>
    simp only [List.map_cons, List.map_nil, List.cons.injEq, and_true] at hlab
    subst hlab
    obtain ⟨n, c1, c', i, e1, e2, rfl⟩ := (audit_entry hr hT (k := 0) (l := "p") (l' := "p") (row := r0) rfl rfl).2 hno
    rw [hs] at e1
    obtain rfl := (Prod.mk.inj e1).1
    obtain ⟨-, -, rfl⟩ := fit_ok e2
    obtain ⟨κ', ha, -, hrp, hb⟩ := hst (o.at n) (ho.at n).1 fun k m => ⟨n, rfl⟩
    have hc := (hb (ho.at n).2).cost
    have hct' : (ad.builder.buildArgs x feats).costType = .max := hct
    rw [if_pos hct', ← ha.max] at hc
    rw [hT, hrp.feasible, hc]
    rfl

/-- The full C95 is false for costs: two auditors, on any two back ends, and two exact solvers for which the audit of one and the same
denied person, in a regular situation, reports different costs (28 against 24, up to a common factor).  In the objective
the largest cost is traded against a multiple of the sum; changing `a` and changing `b` and `c` are
equally good. -/
theorem C95_cost_refuted (be be' : Backend) : ∃ (A : ActionSet ℚ) (w x : List ℚ) (t : ℚ) (ad ad' ad1 ad2 : Auditor ℚ)
    (o o' : Oracle ℚ) (v v' : ℚ), A.Reachable ext95 ∧ mkAuditor be A w t = .ok ad ∧ mkAuditor be' A w t = .ok ad' ∧
    Regular ext95 ad.builder x ∧ Denied ad.builder x ∧ o.Exact ∧ o'.Exact ∧
    ad.audit ext95 o [("p", x)] 1 = (ad1, .ok [("p", ⟨some true, .fin v⟩)]) ∧
    ad'.audit ext95 o' [("p", x)] 1 = (ad2, .ok [("p", ⟨some true, .fin v'⟩)]) ∧ v ≠ v' := by
  obtain ⟨A, hA, ad, had, ad', had', ⟨f1, f2, f3, f4, f5, f6, f7, f8, f9, f10, f11, f12, f13⟩, -⟩ := facts95 be be'
  have hAr : A.Reachable ext95 := .mk hA
  have hr : ad.Reachable ext95 := .mk hAr had
  have hr' : ad'.Reachable ext95 := .mk hAr had'
  have hso : SetOrderOk ext95 := exExt_order
  obtain ⟨o, ho, ad1, h1⟩ := steer_audit hso hr f3 (by rw [f5]; rfl) f7 f9 f11
  obtain ⟨o', ho', ad2, h2⟩ := steer_audit hso hr' f4 (by rw [f6]; rfl) f8 f10 f12
  exact ⟨A, _, _, _, ad, ad', ad1, ad2, o, o', _, _, hAr, had, had', regular_of_b hr.inv.1.ok ext95_pos f1, f2, ho, ho',
    h1, h2, f13⟩

set_option synthInstance.maxHeartbeats 400000 in
set_option synthInstance.maxSize 4000 in
theorem steps95 (be : Backend) : ∃ A : ActionSet ℚ, exSet [[0, 0], [1, 1]] ["a", "b"] = .ok A ∧
    ∃ ad : Auditor ℚ, mkAuditor be A [1, 2] (-1) = .ok ad ∧
    ((regularB exExt ad.builder [0, 0] = true ∧ Denied ad.builder [0, 0] ∧ ad.builder.costType = .max ∧
      (ad.builder.setX exExt [0, 0]).2 = .ok () ∧ ad.coefs.length = 2 ∧ A.names.length = 2 ∧ ad.builder.aset.yDesired = 1 ∧
      ad.builder.coefs = [1, 2] ∧ ad.builder.aset.names = ["a", "b"] ∧ ad.builder.aset.elems.length = 2 ∧
      ¬ HasOutcome 1 ad.coefs ad.intercept [0, 0] ∧ HasOutcome 1 ad.coefs ad.intercept [1, 1] ∧
      admitted (ad.builder.buildArgs [0, 0] (ad.builder.setX exExt [0, 0]).1.feats) (fun _ => true) ≠ [] ∧
      ∀ e ∈ ad.builder.aset.elems, e.grid.vals = [0, 1] ∧ e.actionable = true ∧ e.stepDir = 0 ∧
        e.percentile exExt 0 = .ok ((1 + 1 / 10 ^ 6) / (2 + 2 / 10 ^ 6)) ∧
        e.percentile exExt 1 = .ok ((2 + 1 / 10 ^ 6) / (2 + 2 / 10 ^ 6))) ∧ True) := by
  cases be <;> decide +kernel

/-- Non-vacuity of C95: a person with recourse (a cost step exists, and all costs of changes are equal) and one with
the outcome, audited on any two back ends by any exact solvers; the second auditor is made after the first audit.  The tables are
equal. -/
theorem C95_example (be be' : Backend) {o o' : Oracle ℚ} (ho : o.Exact) (ho' : o'.Exact) :
    ∃ (A : ActionSet ℚ) (ad ad1 ad' ad2 : Auditor ℚ) (T T' : List (String × AuditRow ℚ)) (v : ℚ), A.Reachable exExt ∧
    mkAuditor be A [1, 2] (-1) = .ok ad ∧ Regular exExt ad.builder [0, 0] ∧ Denied ad.builder [0, 0] ∧
    (∃ γ, CostStep exExt ad.builder [0, 0] γ) ∧
    ad.audit exExt o [("p", [0, 0]), ("q", [1, 1])] 1 = (ad1, .ok T) ∧
    mkAuditor be' ad1.builder.aset [1, 2] (-1) = .ok ad' ∧
    ad'.audit exExt o' [("p", [0, 0]), ("q", [1, 1])] 1 = (ad2, .ok T') ∧
    T = [("p", ⟨some true, .fin v⟩), ("q", ⟨none, .nan⟩)] ∧ T' = T := by
  obtain ⟨A, hA, ad, had, ⟨f1, f2, f3, f4, f5, f6, f7, f8, f9, f10, f11, f12, f13, f14⟩, -⟩ := steps95 be
  have hAr : A.Reachable exExt := .mk hA
  have hr : ad.Reachable exExt := .mk hAr had
  have hreg := regular_of_b hr.inv.1.ok exExt_pos f1
  have hsome : ∃ p ∈ [("p", [0, 0]), ("q", [(1 : ℚ), 1])], ¬ HasOutcome 1 ad.coefs ad.intercept p.2 :=
    ⟨("p", [0, 0]), by simp, f11⟩
  obtain ⟨ad1, T, hT⟩ := C46_succeeds_partial (o := o) (y := 1) (ext := exExt) hr
    (X := [("p", [0, 0]), ("q", [1, 1])])
    (by intro p hp; simp at hp; rcases hp with rfl | rfl <;> simp [f5]) (Or.inl rfl) hsome
    (by
      intro p hp hn
      simp at hp
      rcases hp with rfl | rfl
      · exact f4
      · exact absurd f12 hn)
  have hu : Auditor.Audited exExt ad ad1 := by
    have := Auditor.Audited.audit (ext := exExt) o [("p", [0, 0]), ("q", [(1 : ℚ), 1])] 1 (.refl (ad0 := ad))
    rwa [hT] at this
  obtain ⟨r1, -⟩ := hu.parts hr
  -- the second auditor
  obtain ⟨ad', had'⟩ : ∃ ad', mkAuditor be' ad1.builder.aset [1, 2] (-1) = .ok ad' := by
    have hn : ad1.builder.aset.names.length = 2 := by
      have := (hu.parts hr).2.2.2.aset
      have e : ad1.builder.aset.names = ad.builder.aset.names := by
        have := congrArg ActionSet.names this; exact this
      rw [e, f9]; rfl
    obtain ⟨B, k1, k2, -⟩ := (C12_alignment r1.inv.1.ok.aset [1, 2]).1 (by rw [hn]; rfl)
    obtain ⟨b, hb⟩ := mkBuilder_total (be := be') (ct := .max) (t := -1) (A := B) (w := [1, 2])
      (by rw [(setAlignment_ok k1).2]; exact hn.symm)
    exact ⟨⟨[1, 2], -1, b⟩, by unfold mkAuditor; rw [k1, ok_bind, hb]; rfl⟩
  have hr' : ad'.Reachable exExt := .mk r1.inv.1.ok.aset had'
  obtain ⟨s1, s2⟩ := C95_audits_partial (ι := String) (o := o) (o' := o') exExt_order hAr had .refl hu (Or.inr rfl) had' .refl
  obtain ⟨ad2, T', hT'⟩ := (s1 _ 1).mp ⟨_, _, hT⟩
  have hval : ∀ {v : ℚ} {e : Elem ℚ}, e ∈ ad.builder.aset.elems → Permitted e 0 v → v ≠ 0 → v = 1 := by
    intro v e he hp h0
    rcases hp with h | ⟨-, h, -⟩
    · exact absurd h h0
    · rw [(f14 e he).1] at h
      simp only [List.mem_cons, List.not_mem_nil, or_false] at h
      exact h.resolve_left h0
  have hmove : ∀ {v g : ℚ} {e : Elem ℚ}, e ∈ ad.builder.aset.elems → v = 1 →
      MoveCost exExt ad.builder.costType e 0 v g → g = 1 / (2 + 2 / 10 ^ 6) := by
    rintro v g e he rfl ⟨p, q, h1, h2, h3⟩
    obtain ⟨-, -, -, k1, k2⟩ := f14 e he
    rw [k1] at h1; rw [k2] at h2
    rw [h3, ← Except.ok.inj h1, ← Except.ok.inj h2, f3, if_neg (by simp)]
    norm_num [abs_of_pos]
  have hsep : ∀ g, SomeMoveCost exExt ad.builder [0, 0] g → g = 1 / (2 + 2 / 10 ^ 6) := by
    rintro g ⟨j, e, xj, v, h1, h2, h3, h4, h5⟩
    have hx0 : xj = 0 := by
      have := List.mem_of_getElem? h2
      simpa using this
    subst hx0
    have he := List.mem_of_getElem? h1
    exact hmove he (hval he h3 h4) h5
  have hstep : CostStep exExt ad.builder [0, 0] (1 / (2 + 2 / 10 ^ 6)) := by
    have he := List.getElem?_eq_getElem (l := ad.builder.aset.elems) (i := 0) (by rw [f10]; decide)
    have hm := List.mem_of_getElem? he
    obtain ⟨k1, k2, k3, k4, k5⟩ := f14 _ hm
    refine ⟨0, "a", _, 0, 1, 0, 1, 0, 1 / (2 + 2 / 10 ^ 6), by rw [f9]; rfl, he, rfl, by rw [f8]; rfl, Or.inl rfl, Or.inr ⟨k2, ?_, ?_⟩,
      one_ne_zero, Or.inl rfl, Or.inr ?_, ?_, ?_, by norm_num, by norm_num⟩
    · rw [k1]; simp
    · rw [k3]; unfold DirOk; norm_num
    · rw [f7]; norm_num
    · refine ⟨_, _, k4, k4, ?_⟩
      rw [f3, if_neg (by simp)]; simp
    · refine ⟨_, _, k4, k5, ?_⟩
      rw [f3, if_neg (by simp)]; norm_num [abs_of_pos]
  have hlab := (C44_rows hr hT).1
  have hlab' := (C44_rows hr' hT').1
  have hlen : T.length = 2 := by simpa using congrArg List.length hlab
  have hlen' : T'.length = 2 := by simpa using congrArg List.length hlab'
  match T, T', hlen, hlen' with
  | [(l0, r0), (l1, r1)], [(l0', r0'), (l1', r1')], _, _ =>
    simp only [List.map_cons, List.map_nil, List.cons.injEq, and_true] at hlab hlab'
    obtain ⟨rfl, rfl⟩ := hlab
    obtain ⟨rfl, rfl⟩ := hlab'
    obtain ⟨-, -, e0⟩ := s2 exExt_log ho ho' hT hT' (k := 0) (k' := 0) (l := "p") (l' := "p") (m := "p") (m' := "p")
      (x := [0, 0]) (row := r0) (row' := r0') rfl rfl rfl rfl
    obtain ⟨-, -, e1⟩ := s2 exExt_log ho ho' hT hT' (k := 1) (k' := 1) (l := "q") (l' := "q") (m := "q") (m' := "q")
      (x := [1, 1]) (row := r1) (row' := r1') rfl rfl rfl rfl
    have q1 := (C45_entries exExt_order exExt_log ho hr hT (k := 1) (l := "q") (x := [1, 1]) (l' := "q") (row := r1) rfl rfl).1 f12
    have q0 := (C45_entries exExt_order exExt_log ho hr hT (k := 0) (l := "p") (x := [0, 0]) (l' := "p") (row := r0) rfl rfl).2 f11
    have hq : r1 = ⟨none, .nan⟩ ∧ r1' = ⟨none, .nan⟩ := by
      rcases e1 with h | ⟨h, -⟩ | ⟨v, v', h, -⟩
      · exact h
      · rw [h] at q1; exact absurd q1.1 (by simp)
      · rw [h] at q1; exact absurd q1.1 (by simp)
    have hp : ∃ v, r0 = ⟨some true, .fin v⟩ ∧ r0' = ⟨some true, .fin v⟩ := by
      rcases q0 with ⟨-, -, hno⟩ | ⟨h3, -⟩
      · obtain ⟨b1, hs⟩ : ∃ b1, ad.builder.setX exExt [0, 0] = (b1, .ok ()) := ⟨_, Prod.ext rfl f4⟩
        obtain ⟨feats, g1, -, g3⟩ := Posed.setX exExt_order hr.inv.1.ok hs
        rw [hs, show b1.feats = feats from g3.feats] at f13
        obtain ⟨κ, hκ⟩ := List.exists_mem_of_ne_nil _ f13
        have hrec := choice_limited exExt_order hr.inv.1.ok g1 hreg (admitted_ok hκ).1
        rw [hr.inv.2.1, hr.inv.2.2.1] at hrec
        exact absurd ⟨_, hrec⟩ (hno hreg f2)
      · rcases e0 with ⟨h, -⟩ | ⟨h, -⟩ | ⟨v, v', h, h', hc⟩
        · rw [h] at h3; cases h3
        · rw [h] at h3; cases h3
        · have := (hc hreg f2 _ hstep).2 fun g g' hg hg' hlt => by
            rw [hsep g hg, hsep g' hg'] at hlt
            exact absurd hlt (lt_irrefl _)
          subst this
          exact ⟨v, h, h'⟩
    obtain ⟨v, rfl, rfl⟩ := hp
    obtain ⟨rfl, rfl⟩ := hq
    exact ⟨A, ad, ad1, ad', ad2, _, _, v, hAr, had, hreg, f2, ⟨_, hstep⟩, hT, had', hT', rfl, rfl⟩

end Recourse
