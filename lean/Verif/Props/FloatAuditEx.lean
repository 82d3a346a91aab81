import Verif.Props.FloatAudit
import Verif.Props.FloatConverseEx

/-!
# C108: an example in doubles
-/

set_option linter.unusedSectionVars false

namespace Recourse

/-- A dot product with all products rounded, added up from the right. -/
def flSumR (r : Rounding ℚ) : List ℚ → ℚ
  | [] => 0
  | [x] => x
  | x :: y :: t => r.fl (x + flSumR r (y :: t))

/-- See `flSumR`. -/
def flDotR (r : Rounding ℚ) (w x : List ℚ) : ℚ := flSumR r ((List.zipWith (· * ·) w x).map r.fl)

theorem flSumR_ok (r : Rounding ℚ) : ∀ l : List ℚ, FlSum r l (flSumR r l)
  | [] => .nil
  | [x] => .one x
  | x :: y :: t => .join (.one x) (flSumR_ok r (y :: t)) (by simp) (by simp) (List.Perm.refl _)

theorem flDotR_ok (r : Rounding ℚ) (w x : List ℚ) : FlDot r w x (flDotR r w x) := by
  refine ⟨_, ?_, flSumR_ok r _⟩
  rw [List.forall₂_map_left_iff]
  exact List.forall₂_same.mpr fun _ _ => Or.inr rfl

/-- Non-vacuity of C108: three people and two features with coefficients `0.1` and `2`, all in doubles.  Every exact solver gives the two denied ones an entry, says
`feasible` for the first one, for whom there is recourse with a margin, and leaves the entry of the approved one empty. -/
theorem C108_example : ∃ (ad : Auditor ℚ) (a : List ℚ) (R : ℚ), AnyGrids ad.builder ∧ RoomToRound exExt doubles ad.builder [3, 0] ∧ Denied ad.builder [3, 0] ∧
    ClearRecourse (scoreError doubles ad.builder [3, 0] + coefSize ad.builder.coefs * (doubles.u * R)) ad.builder.aset ad.builder.coefs
      ad.builder.intercept [3, 0] a ad.builder.maxItems ∧
    ∀ o : Oracle ℚ, o.Exact → ∃ ad' T,
      ad.auditFl doubles exExt o (fun v => flDotR doubles v ad.coefs) (fun v => flDotR doubles ad.coefs v)
        [("p", [3, 0]), ("q", [6, 1]), ("r", [0, 0])] 1 = (ad', .ok T) ∧
      T.map (fun e => (e.1, e.2.feasible.isSome)) = [("p", true), ("q", false), ("r", true)] ∧
      ∃ e, T[0]? = some e ∧ e.2.feasible = some true := by
  have key : ∃ ad : Auditor ℚ, exAuditorE .cpx [[0, 0], [3, 1], [6, 1]] ["a", "b"] [dbl (1 / 10), 2] (-1) = .ok ad ∧
      (ad.coefs.length = 2 ∧ clearB doubles ad.builder [3, 0] [1, 1] 6 = true ∧ Denied ad.builder [3, 0] ∧
      ad.builder.coefs = ad.coefs ∧
      ad.selectedFl 1 (flDotR doubles [3, 0] ad.coefs) = true ∧ ad.selectedFl 1 (flDotR doubles [0, 0] ad.coefs) = true ∧
      ad.selectedFl 1 (flDotR doubles [6, 1] ad.coefs) = false ∧
      (ad.builder.setXFl doubles exExt (flDotR doubles ad.coefs [3, 0]) [3, 0]).2 = .ok () ∧
      (ad.builder.setXFl doubles exExt (flDotR doubles ad.coefs [0, 0]) [0, 0]).2 = .ok ()) := by decide +kernel
  obtain ⟨ad, h1, h2, hcl, hden, hco, s1, s2, s3, x1, x2⟩ := key
  have hr : ad.Reachable exExt := exAuditorE_reachable h1
  have hb := hr.inv.1.ok
  obtain ⟨c1, c2, c3, c4, c5, c6, hy, c7⟩ := clear_of_b hb hcl
  refine ⟨ad, [1, 1], 6, AnyGrids.of_ok hb, c1, hden, c7, fun o ho => ?_⟩
  obtain ⟨ad', T, hT⟩ := C108_succeeds (o := o) (y := 1) (ext := exExt) (r := doubles) (dA := fun v => flDotR doubles v ad.coefs)
    (dB := fun v => flDotR doubles ad.coefs v) (X := [("p", [3, 0]), ("q", [6, 1]), ("r", [0, 0])]) (AnyGrids.of_ok hb)
    (by intro p hp; simp at hp; rcases hp with rfl | rfl | rfl <;> simp [h2]) (Or.inl rfl) ⟨("p", [3, 0]), by simp, s1⟩
    (by
      intro p hp hn
      simp at hp
      rcases hp with rfl | rfl | rfl
      · exact x1
      · dsimp only at hn; rw [s3] at hn; cases hn
      · exact x2)
  refine ⟨ad', T, hT, ?_⟩
  obtain ⟨g, hTg, hg⟩ := auditFl_ok (AnyGrids.of_ok hb).columns.length hT
  have e1 := (hg ("p", [3, 0]) (by simp)).2 s1
  have e2 := (hg ("q", [6, 1]) (by simp)).1 s3
  have e3 := (hg ("r", [0, 0]) (by simp)).2 s2
  dsimp only at e1 e2 e3
  have hf : (g [3, 0]).feasible = some true := by
    cases hh : (g [3, 0]).feasible with
    | none => obtain ⟨_, _, _, i, -, -, he⟩ := e1; rw [he] at hh; cases hh
    | some v =>
      cases v with
      | true => rfl
      | false =>
        exfalso
        exact C108_infeasible exExt_order (by norm_num [doubles]) exExt_log ho.2 (AnyGrids.of_ok hb) (Or.inl hy)
          (by rw [hco]; exact flDotR_ok doubles ad.coefs [3, 0]) hT (k := 0) (l := "p") (l' := "p") (row := g [3, 0]) (x := [3, 0]) rfl (by rw [hTg]; rfl) hh
          c5 c1 c2 c3 c4 hden c6 ⟨_, c7⟩
  obtain ⟨_, _, _, i, -, -, he⟩ := e3
  refine ⟨?_, ("p", g [3, 0]), by rw [hTg]; rfl, hf⟩
  rw [hTg]
  simp only [List.map_cons, List.map_nil]
  rw [hf, e2, he]
  rfl

end Recourse
