import Verif.Props.Prefix
import Verif.Props.Enum

/-!
# C115: an example
-/

set_option linter.unusedSectionVars false

namespace Recourse

/-- Non-vacuity of C115: two binary features and three ways to change them.  With every exact solver the first call finds the one item it was asked for, and the
second call finds at least two more. -/
theorem C115_example (be : Backend) (ct : CostType) : ∃ b0 b1 : Builder ℚ, b0.Reachable exExt ∧ b0.setX exExt [0, 0] = (b1, .ok ()) ∧
    ∀ o : Oracle ℚ, o.Exact → ∃ b2 b3 L1 L2, b1.populate o .distinctSubsets 5 (some 1) = .ok (some (b2, L1)) ∧ L1.length = 1 ∧
      b2.populate o .distinctSubsets 4 none = .ok (some (b3, L2)) ∧ 2 ≤ L2.length ∧
      b1.populate o .distinctSubsets 5 none = .ok (some (b3, L1 ++ L2)) := by
  obtain ⟨b0, b1, hr, -, -, -, -, hna, hs, hk⟩ := C37_example be ct .distinctSubsets
  refine ⟨b0, b1, hr, hs, fun o ho => ?_⟩
  obtain ⟨b3, l, hp, hm, -⟩ := hk o ho
  have hm := hm rfl
  have hl : 3 ≤ l.length := by
    have hsub : ({some [1, 0], some [0, 1], some [1, 1]} : Finset (Option (List ℚ))) ⊆ (l.map (·.actions)).toFinset := by
      intro a ha
      rw [List.mem_toFinset, List.mem_map]
      simp only [Finset.mem_insert, Finset.mem_singleton] at ha
      rcases ha with rfl | rfl | rfl
      · exact hm _ (by simp)
      · exact hm _ (by simp)
      · exact hm _ (by simp)
    have h1 := (Finset.card_le_card hsub).trans (List.toFinset_card_le _)
    rw [List.length_map] at h1
    have h2 : ({some [1, 0], some [0, 1], some [1, 1]} : Finset (Option (List ℚ))).card = 3 := by decide +kernel
    omega
  obtain ⟨b2, L1, h1, -⟩ := C41_terminates exExt_order ho.1 hr hs .refl .distinctSubsets (some 1) (by simp)
  have h1 := h1 5 (by rw [hna]; decide)
  have hL1 := (C115_prefix h1 hp (fun _ e => by cases e)).1
  have hlen : L1.length = 1 := by rw [hL1, List.length_take]; omega
  obtain ⟨⟨m, hmip⟩, -, h1'⟩ := populate_ok h1
  obtain ⟨-, -, hp'⟩ := populate_ok hp
  rcases popLoop_split h1' with ⟨-, e⟩ | ⟨e, -⟩
  swap
  · rw [List.length_nil] at e; omega
  have e := e 4 none
  rw [show 1 + 4 = 5 from rfl, Option.map_none, hp', popLoop_from] at e
  obtain ⟨⟨c, L2⟩, q1, q2⟩ := Option.map_eq_some_iff.mp e.symm
  cases q2
  have hb2 : b2.mip.isSome := by
    rcases hb : b2.mip with _ | m'
    · exfalso
      have : ∃ L, b2.popLoop o .distinctSubsets 4 none [] = some (c, L) := ⟨_, q1⟩
      have hpop := popLoop_mip h1'
      rw [hmip, hb] at hpop
      cases hpop
    · rfl
  refine ⟨b2, c, L1, L2, h1, hlen, ?_, ?_, hp⟩
  · rw [populate_loop hb2 (fun _ e => by cases e), q1]
  · rw [List.length_append] at hl; dsimp only at hl; omega

end Recourse
