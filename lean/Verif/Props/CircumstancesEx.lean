import Verif.Props.CircumstancesMax
import Verif.Props.AuditSolversEx

/-!
# Non-vacuity of C119 for audits
-/

set_option linter.unusedSectionVars false

namespace Recourse

set_option synthInstance.maxHeartbeats 400000 in
set_option synthInstance.maxSize 4000 in
theorem facts119 (be : Backend) : ∃ A : ActionSet ℚ, exSet [[0, 0], [1, 1], [2, 1]] ["a", "b"] = .ok A ∧
    ∃ ad : Auditor ℚ, mkAuditor be (A.setElemAttr "b" "actionable" (.bool false)).1 [1, 1] (-2) = .ok ad ∧
    ((regularB exExt ad.builder [0, 0] = true ∧ Denied ad.builder [0, 0] ∧ Denied ad.builder [0, 1] ∧
      ad.builder.costType = .max ∧ (ad.builder.setX exExt [0, 0]).2 = .ok () ∧ (ad.builder.setX exExt [0, 1]).2 = .ok () ∧
      ad.coefs = [1, 1] ∧ ad.intercept = -2 ∧ ad.builder.aset.yDesired = 1 ∧ ad.builder.coefs = [1, 1] ∧
      ad.builder.aset.names = ["a", "b"] ∧ ad.builder.aset.elems.map (·.actionable) = [true, false] ∧
      ¬ HasOutcome 1 ad.coefs ad.intercept [0, 0] ∧ ¬ HasOutcome 1 ad.coefs ad.intercept [0, 1] ∧
      admitted (ad.builder.buildArgs [0, 0] (ad.builder.setX exExt [0, 0]).1.feats) (fun _ => true) ≠ [] ∧
      (ad.builder.aset.elems[0]?.map fun e => (e.grid.vals, e.stepDir)) = some ([0, 1, 2], 0) ∧
      (ad.builder.aset.elems[0]?.map fun e => (e.percentile exExt 0, e.percentile exExt 1)) =
        some (.ok (1000001 / 3000002), .ok (2000001 / 3000002))) ∧ True) := by
  cases be <;> decide +kernel

/-- Non-vacuity of the audit theorems of C119: two denied people who differ in a feature that cannot change, the situation of the
first being regular; a cost step exists; every exact solver finds recourse for the first. -/
theorem C119_audit_example (be : Backend) : ∃ ad : Auditor ℚ, ad.Reachable exExt ∧ Regular exExt ad.builder [0, 0] ∧
    Denied ad.builder [0, 0] ∧ Denied ad.builder [0, 1] ∧ SameActionable ad.builder.aset [0, 0] [0, 1] ∧
    (∃ γ, CostStep exExt ad.builder [0, 0] γ) ∧ ∀ o : Oracle ℚ, o.Exact → ∃ ad' c c',
      ad.audit exExt o [("p", [0, 0]), ("q", [0, 1])] 1 = (ad', .ok [("p", ⟨some true, .fin c⟩), ("q", ⟨some true, .fin c'⟩)]) ∧
      ∀ γ, CostStep exExt ad.builder [0, 0] γ → c' < c + γ := by
  obtain ⟨A, hA, ad, had, ⟨f1, f2, f2', f3, f4, f4', f5, f6, f7, f8, f9, f10, f11, f12, f13, f14, f15⟩, -⟩ := facts119 be
  have hr : ad.Reachable exExt := .mk (.setElem _ _ _ (.mk hA)) had
  have hreg := regular_of_b hr.inv.1.ok exExt_pos f1
  have hso : SetOrderOk exExt := exExt_order
  have hel : ∀ (j : ℕ) (e : Elem ℚ), ad.builder.aset.elems[j]? = some e → ([true, false] : List Bool)[j]? = some e.actionable := by
    intro j e he
    rw [← f10, List.getElem?_map, he]; rfl
  have hsame : SameActionable ad.builder.aset [0, 0] [0, 1] := by
    refine ⟨rfl, fun j e he ha => ?_⟩
    have := hel j e he
    rw [ha] at this
    match j, this with
    | 0, _ => rfl
    | 1, h => cases h
    | (n + 2), h => simp at h
  have hstep : CostStep exExt ad.builder [0, 0] (1000000 / 3000002) := by
    cases he : ad.builder.aset.elems[0]? with
    | none => rw [he] at f14; cases f14
    | some e =>
      rw [he] at f14 f15
      simp only [Option.map_some, Option.some.injEq, Prod.mk.injEq] at f14 f15
      obtain ⟨k1, k3⟩ := f14
      obtain ⟨k4, k5⟩ := f15
      have k2 : e.actionable = true := by have := hel 0 e he; simpa using this.symm
      refine ⟨0, "a", e, 0, 1, 0, 1, 0, 1000000 / 3000002, by rw [f9]; rfl, he, rfl, by rw [f8]; rfl, Or.inl rfl, Or.inr ⟨k2, ?_, ?_⟩,
        one_ne_zero, Or.inl rfl, Or.inr ?_, ?_, ?_, by norm_num, by norm_num⟩
      · rw [k1]; simp
      · rw [k3]; unfold DirOk; norm_num
      · rw [f7]; norm_num
      · refine ⟨_, _, k4, k4, ?_⟩
        rw [f3, if_neg (by simp)]; simp
      · refine ⟨_, _, k4, k5, ?_⟩
        rw [f3, if_neg (by simp)]; norm_num [abs_of_pos]
  refine ⟨ad, hr, hreg, f2, f2', hsame, ⟨_, hstep⟩, fun o ho => ?_⟩
  obtain ⟨ad1, T, hT⟩ := C46_succeeds_partial (o := o) (y := 1) (ext := exExt) hr
    (X := [("p", [0, 0]), ("q", [0, 1])])
    (by intro p hp; simp at hp; rcases hp with rfl | rfl <;> simp [f5]) (Or.inl rfl) ⟨("p", [0, 0]), by simp, f11⟩
    (by
      intro p hp hn
      simp at hp
      rcases hp with rfl | rfl
      · exact f4
      · exact f4')
  have hlab := (C44_rows hr hT).1
  have hlen : T.length = 2 := by simpa using congrArg List.length hlab
  match T, hlen with
  | [(l0, r0), (l1, r1)], _ =>
    simp only [List.map_cons, List.map_nil, List.cons.injEq, and_true] at hlab
    obtain ⟨rfl, rfl⟩ := hlab
    have h0 : r0.feasible = some true := by
      obtain ⟨n, b1, b', i, k1, k2, rfl⟩ := (audit_entry hr hT (k := 0) (l := "p") (l' := "p") (x := [0, 0]) rfl rfl).2 f11
      obtain ⟨b1', feats, g1, -, g2, b3, i', g3, g4⟩ := exSolve hso hr.inv.1 f4 (ho.at n)
      rw [k1] at g1; cases g1
      rw [k2] at g3; cases g3
      rw [g2] at f13
      rcases g4 with ⟨h, -⟩ | ⟨κ, -, -, gf, -⟩
      · exact absurd h f13
      · exact congrArg some gf
    rcases C119_audit hso exExt_log ho ho hr hT hT (k := 0) (k' := 1) (l := "p") (m := "p") (l' := "q") (m' := "q")
      (x := [0, 0]) (x' := [0, 1]) rfl rfl rfl rfl hsame (by rw [f7, f5, f6]; decide +kernel) h0 with ⟨h, -⟩ | ⟨h1, h2⟩
    · exact absurd h f12
    obtain ⟨c, c', e1, e2, e3⟩ := h2 hreg f2 f2'
    refine ⟨ad1, c, c', ?_, fun γ hγ => (e3 γ hγ).1⟩
    rw [hT]
    obtain ⟨r0f, r0c⟩ := r0
    obtain ⟨r1f, r1c⟩ := r1
    dsimp only at h0 h1 e1 e2
    rw [h0, h1, e1, e2]

end Recourse
