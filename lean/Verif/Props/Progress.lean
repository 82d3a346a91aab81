import Verif.Props.Optimal

/-!
# C117: part of the advice
-/

set_option linter.unusedSectionVars false

namespace Recourse

variable {K : Type} [Field K] [LinearOrder K] [IsStrictOrderedRing K] [FloorRing K]

variable {ext : Ext K} {o o' : Oracle K} {b0 b1 b2 b3 d0 d1 d2 d3 : Builder K} {x a p cs : List K} {i i' : Info K}
  {A : ActionSet K}

/-- `p` is a part of the action `a`: some of its changes, and nothing else. -/
def PartOf (a p : List K) : Prop :=
  p.length = a.length ∧ ∀ (j : ℕ) (aj pj : K), a[j]? = some aj → p[j]? = some pj → pj = 0 ∨ pj = aj

/-- The changes of `a` that are not in its part `p`. -/
def restOf (a p : List K) : List K := List.zipWith (fun aj pj => if pj = 0 then aj else 0) a p

/-- The costs `cs` of the changes that are not in the part `p`. -/
def restCosts (p cs : List K) : List K := List.zipWith (fun pj c => if pj = 0 then c else 0) p cs

/-- The costs `cs` of the changes in the part `p`. -/
def doneCosts (p cs : List K) : List K := List.zipWith (fun pj c => if pj = 0 then 0 else c) p cs

theorem rest_done_sum : ∀ {p cs : List K}, p.length = cs.length → (doneCosts p cs).sum + (restCosts p cs).sum = cs.sum := by
  intro p
  induction p with
  | nil => intro cs h; cases cs with
    | nil => simp [doneCosts, restCosts]
    | cons c cs => simp at h
  | cons v p ih =>
    intro cs h
    cases cs with
    | nil => simp at h
    | cons c cs =>
      have e := ih (cs := cs) (by simpa using h)
      unfold doneCosts restCosts at e ⊢
      rw [List.zipWith_cons_cons, List.zipWith_cons_cons, List.sum_cons, List.sum_cons, List.sum_cons]
      split_ifs <;> linarith

theorem vadd_length (x a : List K) (h : a.length = x.length) : (vadd x a).length = x.length := by
  unfold vadd; rw [List.length_zipWith, h]; simp

theorem vadd_get {x a : List K} {j : ℕ} {xj aj : K} (hx : x[j]? = some xj) (ha : a[j]? = some aj) :
    (vadd x a)[j]? = some (xj + aj) := by
  unfold vadd; simp [List.getElem?_zipWith, hx, ha]

theorem vadd_get_inv {x a : List K} {j : ℕ} {v : K} (h : (vadd x a)[j]? = some v) :
    ∃ xj aj, x[j]? = some xj ∧ a[j]? = some aj ∧ v = xj + aj := by
  unfold vadd at h
  rw [List.getElem?_zipWith] at h
  cases hx : x[j]? with
  | none => rw [hx] at h; cases h
  | some xj =>
    cases ha : a[j]? with
    | none => rw [hx, ha] at h; cases h
    | some aj =>
      rw [hx, ha] at h
      exact ⟨xj, aj, rfl, rfl, (Option.some.inj h).symm⟩

theorem restOf_get {a p : List K} {j : ℕ} {v : K} (h : (restOf a p)[j]? = some v) :
    ∃ aj pj, a[j]? = some aj ∧ p[j]? = some pj ∧ v = if pj = 0 then aj else 0 := by
  unfold restOf at h
  rw [List.getElem?_zipWith] at h
  cases hx : a[j]? with
  | none => rw [hx] at h; cases h
  | some aj =>
    cases hp : p[j]? with
    | none => rw [hx, hp] at h; cases h
    | some pj =>
      rw [hx, hp] at h
      exact ⟨aj, pj, rfl, rfl, (Option.some.inj h).symm⟩

theorem restCosts_get {p cs : List K} {j : ℕ} {v : K} (h : (restCosts p cs)[j]? = some v) :
    ∃ pj cj, p[j]? = some pj ∧ cs[j]? = some cj ∧ v = if pj = 0 then cj else 0 := by
  unfold restCosts at h
  rw [List.getElem?_zipWith] at h
  cases hp : p[j]? with
  | none => rw [hp] at h; cases h
  | some pj =>
    cases hc : cs[j]? with
    | none => rw [hp, hc] at h; cases h
    | some cj =>
      rw [hp, hc] at h
      exact ⟨pj, cj, rfl, rfl, (Option.some.inj h).symm⟩

theorem vadd_assoc : ∀ (x p a : List K), vadd (vadd x p) a = vadd x (vadd p a)
  | [], _, _ => by simp [vadd]
  | _ :: _, [], _ => by simp [vadd]
  | _ :: _, _ :: _, [] => by simp [vadd]
  | v :: x, u :: p, w :: a => by
      have := vadd_assoc x p a
      unfold vadd at this ⊢
      simp only [List.zipWith_cons_cons, this, add_assoc]

/-- The part and the rest make the whole. -/
theorem PartOf.whole : ∀ {a p : List K}, PartOf a p → vadd p (restOf a p) = a
  | [], [], _ => rfl
  | [], _ :: _, h => by simp [PartOf] at h
  | _ :: _, [], h => by simp [PartOf] at h
  | v :: a, u :: p, h => by
      have e := PartOf.whole (a := a) (p := p) ⟨by simpa using h.1, fun j aj pj h1 h2 =>
        h.2 (j + 1) aj pj (by simpa using h1) (by simpa using h2)⟩
      have h0 := h.2 0 v u rfl rfl
      unfold vadd restOf at e ⊢
      rw [List.zipWith_cons_cons, List.zipWith_cons_cons, e]
      congr 1
      rcases h0 with h0 | h0
      · simp [h0]
      · by_cases hu : u = 0
        · simp [hu]
        · rw [if_neg hu, add_zero, h0]

theorem numChanged_rest : ∀ {a p : List K}, numChanged (restOf a p) ≤ numChanged a
  | [], _ => by simp [restOf, numChanged]
  | _ :: _, [] => by simp [restOf, numChanged]
  | v :: a, u :: p => by
      have e := numChanged_rest (a := a) (p := p)
      unfold restOf numChanged at e ⊢
      rw [List.zipWith_cons_cons, List.countP_cons, List.countP_cons]
      by_cases hv : v = 0
      · rw [if_neg (by simp [hv])]; simp only [add_zero]; omega
      · rw [if_pos (show decide (v ≠ 0) = true by simpa using hv)]
        split_ifs <;> omega

theorem PartOf.rest_length (h : PartOf a p) : (restOf a p).length = a.length := by
  unfold restOf; rw [List.length_zipWith, h.1]; simp

/-- The rest of a permitted recourse is a permitted recourse after the part has been done. -/
theorem PartOf.rest_recourse {w : List K} {t : K} {hi : ℕ} (h : PartOf a p)
    (ha : IsLimitedRecourse A w t x a 1 hi) (hpos : 1 ≤ numChanged (restOf a p)) :
    IsLimitedRecourse A w t (vadd x p) (restOf a p) 1 hi := by
  have hal := ha.permitted.1
  have hpl : p.length = x.length := h.1.trans hal
  have hv : vadd (vadd x p) (restOf a p) = vadd x a := by rw [vadd_assoc, h.whole]
  refine ⟨⟨⟨?_, ?_⟩, hpos, le_trans numChanged_rest ha.max, ?_⟩, ?_⟩
  · rw [h.rest_length, vadd_length x p hpl, hal]
  · intro j e xj aj he hx hr
    obtain ⟨x0, pj, h1, h2, rfl⟩ := vadd_get_inv hx
    obtain ⟨a0, p0, h3, h4, rfl⟩ := restOf_get hr
    rw [h2] at h4; cases h4
    by_cases hp : pj = 0
    · rw [if_pos hp, hp, add_zero]
      exact ha.permitted.2 j e x0 a0 he h1 h3
    · rw [if_neg hp, add_zero]
      exact Or.inl rfl
  · unfold ReachesScore; rw [hv]; exact ha.score
  · intro k hk
    have := ha.limits k hk
    unfold numNonzero at this ⊢
    rw [hv]; exact this

/-- The rest costs what it cost as part of the whole. -/
theorem PartOf.rest_costs {ct : CostType} (h : PartOf a p) (hal : a.length = x.length)
    (hc : ActionCosts ext ct A x a cs) : ActionCosts ext ct A (vadd x p) (restOf a p) (restCosts p cs) := by
  have hpl : p.length = x.length := h.1.trans hal
  refine ⟨?_, ?_⟩
  · unfold restCosts
    rw [List.length_zipWith, vadd_length x p hpl, hc.1, hpl]; simp
  · intro j e xj aj c he hx hr hcj
    obtain ⟨x0, pj, h1, h2, rfl⟩ := vadd_get_inv hx
    obtain ⟨a0, p0, h3, h4, rfl⟩ := restOf_get hr
    rw [h2] at h4; cases h4
    obtain ⟨p0, c0, h5, h6, rfl⟩ := restCosts_get hcj
    rw [h2] at h5; cases h5
    by_cases hp : pj = 0
    · rw [if_pos hp, if_pos hp, hp, add_zero]
      exact hc.2 j e x0 a0 c0 he h1 h3 h6
    · rw [if_neg hp, if_neg hp]
      exact ⟨fun _ => rfl, fun h => absurd rfl h⟩

/-- What is permitted after something permitted is permitted. -/
theorem permitted_trans {e : Elem K} {u v w : K} (h : Permitted e u v) (h' : Permitted e v w) : Permitted e u w := by
  rcases h with rfl | ⟨h1, h2, h3⟩
  · exact h'
  · rcases h' with rfl | ⟨g1, g2, g3⟩
    · exact Or.inr ⟨h1, h2, h3⟩
    · exact Or.inr ⟨g1, g2, fun hd => le_trans (h3.1 hd) (g3.1 hd), fun hd => le_trans (g3.2 hd) (h3.2 hd)⟩

/-- With a logarithm that turns products into sums the log ratio is the distance of two logarithms. -/
theorem logRatio_eq (hlog : LogOk ext) (hmul : ∀ r s : K, 0 < r → 0 < s → ext.log (r * s) = ext.log r + ext.log s)
    {u v : K} (hu : u < 1) (hv : v < 1) :
    ext.log ((1 - min u v) / (1 - max u v)) = |ext.log (1 - v) - ext.log (1 - u)| := by
  have key : ∀ u v : K, u < 1 → v < 1 → u ≤ v →
      ext.log ((1 - min u v) / (1 - max u v)) = |ext.log (1 - v) - ext.log (1 - u)| := by
    intro u v hu hv h
    have h1 : 0 < 1 - v := by linarith
    have h2 : 0 < 1 - u := by linarith
    rw [min_eq_left h, max_eq_right h]
    have e := hmul ((1 - u) / (1 - v)) (1 - v) (div_pos h2 h1) h1
    rw [div_mul_cancel₀ _ h1.ne'] at e
    have hn : 0 ≤ ext.log ((1 - u) / (1 - v)) := by
      rcases h.eq_or_lt with h | h
      · have := hmul 1 1 one_pos one_pos
        rw [h, div_self h1.ne']
        rw [one_mul] at this
        linarith
      · exact ((hlog _ (div_pos h2 h1)).mpr ((one_lt_div h1).mpr (by linarith))).le
    rw [e, abs_sub_comm, abs_of_nonneg (by linarith)]
    ring
  rcases le_total u v with h | h
  · exact key u v hu hv h
  · have := key v u hv hu h
    rw [min_comm, max_comm, abs_sub_comm]
    exact this

/-- Going there in two moves costs at least as much as going there directly. -/
theorem moveCost_triangle {ct : CostType} {e : Elem K} {u v w c c' : K} (hlog : ct = .loc → LogOk ext)
    (hmul : ct = .loc → ∀ r s : K, 0 < r → 0 < s → ext.log (r * s) = ext.log r + ext.log s)
    (hlt : ct = .loc → ∀ y, y = u ∨ y = v ∨ y = w → ∀ q, e.percentile ext y = .ok q → q < 1)
    (h : MoveCost ext ct e u v c) (h' : MoveCost ext ct e v w c') :
    ∃ d, MoveCost ext ct e u w d ∧ d ≤ c + c' := by
  obtain ⟨pu, pv, h1, h2, h3⟩ := h
  obtain ⟨pv', pw, h4, h5, h6⟩ := h'
  rw [h2] at h4; cases h4
  refine ⟨_, ⟨pu, pw, h1, h5, rfl⟩, ?_⟩
  by_cases hl : ct = .loc
  · rw [if_pos hl] at h3 h6 ⊢
    have au := hlt hl u (Or.inl rfl) _ h1
    have av := hlt hl v (Or.inr (Or.inl rfl)) _ h2
    have aw := hlt hl w (Or.inr (Or.inr rfl)) _ h5
    rw [logRatio_eq (hlog hl) (hmul hl) au av] at h3
    rw [logRatio_eq (hlog hl) (hmul hl) av aw] at h6
    rw [logRatio_eq (hlog hl) (hmul hl) au aw, h3, h6, add_comm]
    exact abs_sub_le _ _ _
  · rw [if_neg hl] at h3 h6 ⊢
    rw [h3, h6, add_comm]
    exact abs_sub_le _ _ _

/-- A list that is everywhere at most the sum of two others has at most the sum of their sums. -/
theorem sum_le_two : ∀ {l a b : List K}, l.length = a.length → l.length = b.length →
    (∀ (j : ℕ) (u v w : K), l[j]? = some u → a[j]? = some v → b[j]? = some w → u ≤ v + w) → l.sum ≤ a.sum + b.sum
  | [], [], [], _, _, _ => by simp
  | [], _ :: _, _, h, _, _ => by simp at h
  | [], [], _ :: _, _, h, _ => by simp at h
  | _ :: _, [], _, h, _, _ => by simp at h
  | _ :: _, _ :: _, [], _, h, _ => by simp at h
  | u :: l, v :: a, w :: b, h, h', hs => by
      have e := sum_le_two (l := l) (a := a) (b := b) (by simpa using h) (by simpa using h') fun j u v w h1 h2 h3 =>
        hs (j + 1) u v w (by simpa using h1) (by simpa using h2) (by simpa using h3)
      have := hs 0 u v w rfl rfl rfl
      rw [List.sum_cons, List.sum_cons, List.sum_cons]
      linarith

theorem doneCosts_get {p cs : List K} {j : ℕ} {pj cj : K} (hp : p[j]? = some pj) (hc : cs[j]? = some cj) :
    (doneCosts p cs)[j]? = some (if pj = 0 then 0 else cj) := by
  unfold doneCosts; simp [List.getElem?_zipWith, hp, hc]

/-- Two actions one after the other make one action, whose costs are at most the sum of both. -/
theorem merged_costs {ct : CostType} {a' cs' : List K} (hlen : A.elems.length = x.length)
    (hlog : ct = .loc → LogOk ext)
    (hmul : ct = .loc → ∀ r s : K, 0 < r → 0 < s → ext.log (r * s) = ext.log r + ext.log s)
    (hlt : ct = .loc → ∀ (j : ℕ) (e : Elem K) (xj v q : K), A.elems[j]? = some e → x[j]? = some xj →
      e.actionable = true → (v = xj ∨ v ∈ e.grid.vals) → e.percentile ext v = .ok q → q < 1)
    (hp : PartOf a p) (ha : PermittedAction A x a) (hc : ActionCosts ext ct A x a cs)
    (hn : ∀ (j : ℕ) (cj : K), cs[j]? = some cj → 0 ≤ cj)
    (ha' : PermittedAction A (vadd x p) a') (hc' : ActionCosts ext ct A (vadd x p) a' cs')
    (hn' : ∀ (j : ℕ) (cj : K), cs'[j]? = some cj → 0 ≤ cj) :
    PermittedAction A x (vadd p a') ∧ ∃ ds, ActionCosts ext ct A x (vadd p a') ds ∧
      ds.sum ≤ (doneCosts p cs).sum + cs'.sum := by
  have hal := ha.1
  have hpl : p.length = x.length := hp.1.trans hal
  have hxl : (vadd x p).length = x.length := vadd_length x p hpl
  have hal' : a'.length = x.length := ha'.1.trans hxl
  have hml : (vadd p a').length = x.length := by rw [vadd_length p a' (hal'.trans hpl.symm), hpl]
  have hcl : cs.length = x.length := hc.1
  have hcl' : cs'.length = x.length := hc'.1.trans hxl
  have hperm : ∀ (j : ℕ) (e : Elem K) (xj pj aj : K), A.elems[j]? = some e → x[j]? = some xj → p[j]? = some pj →
      a'[j]? = some aj → Permitted e xj (xj + pj) ∧ Permitted e (xj + pj) (xj + pj + aj) := by
    intro j e xj pj aj he hx hpj haj
    refine ⟨?_, ha'.2 j e _ aj he (vadd_get hx hpj) haj⟩
    have hj : j < a.length := by rw [hal]; exact (List.getElem?_eq_some_iff.mp hx).1
    rcases hp.2 j _ pj (List.getElem?_eq_getElem hj) hpj with h | h
    · exact Or.inl (by rw [h, add_zero])
    · rw [h]; exact ha.2 j e xj _ he hx (List.getElem?_eq_getElem hj)
  refine ⟨⟨hml, ?_⟩, ?_⟩
  · intro j e xj mj he hx hm
    obtain ⟨pj, aj, h1, h2, rfl⟩ := vadd_get_inv hm
    obtain ⟨k1, k2⟩ := hperm j e xj pj aj he hx h1 h2
    rw [← add_assoc]
    exact permitted_trans k1 k2
  -- one column
  have key : ∀ j : ℕ, ∃ d : K, ∀ (e : Elem K) (xj pj aj cj cj' : K), A.elems[j]? = some e → x[j]? = some xj →
      p[j]? = some pj → a'[j]? = some aj → cs[j]? = some cj → cs'[j]? = some cj' →
      (pj + aj = 0 → d = 0) ∧ (pj + aj ≠ 0 → MoveCost ext ct e xj (xj + (pj + aj)) d) ∧
      d ≤ (if pj = 0 then 0 else cj) + cj' := by
    intro j
    by_cases hj : j < x.length
    · have e1 := List.getElem?_eq_getElem (l := A.elems) (i := j) (by omega)
      have e2 := List.getElem?_eq_getElem (l := x) (i := j) hj
      have e3 := List.getElem?_eq_getElem (l := p) (i := j) (by omega)
      have e4 := List.getElem?_eq_getElem (l := a') (i := j) (by omega)
      have e5 := List.getElem?_eq_getElem (l := cs) (i := j) (by omega)
      have e6 := List.getElem?_eq_getElem (l := cs') (i := j) (by omega)
      have e7 := List.getElem?_eq_getElem (l := a) (i := j) (by omega)
      generalize A.elems[j] = e at e1
      generalize x[j] = xj at e2
      generalize p[j] = pj at e3
      generalize a'[j] = aj at e4
      generalize cs[j] = cj at e5
      generalize cs'[j] = cj' at e6
      generalize a[j] = a0 at e7
      obtain ⟨k1, k2⟩ := hperm j e xj pj aj e1 e2 e3 e4
      obtain ⟨c1, c2⟩ := hc.2 j e xj a0 cj e1 e2 e7 e5
      obtain ⟨c3, c4⟩ := hc'.2 j e _ aj cj' e1 (vadd_get e2 e3) e4 e6
      have n1 := hn j cj e5
      have n2 := hn' j cj' e6
      have main : ∃ d : K, (pj + aj = 0 → d = 0) ∧ (pj + aj ≠ 0 → MoveCost ext ct e xj (xj + (pj + aj)) d) ∧
          d ≤ (if pj = 0 then 0 else cj) + cj' := by
        by_cases hs : pj + aj = 0
        · refine ⟨0, fun _ => rfl, fun h => absurd hs h, ?_⟩
          split_ifs <;> linarith
        by_cases h0 : pj = 0
        · refine ⟨cj', fun h => absurd h hs, fun _ => ?_, ?_⟩
          · have : aj ≠ 0 := fun h => hs (by rw [h0, h, add_zero])
            have := c4 this
            rw [h0, add_zero] at this
            rw [h0, zero_add]; exact this
          · rw [if_pos h0, zero_add]
        have hpa : pj = a0 := (hp.2 j a0 pj e7 e3).resolve_left h0
        have m1 : MoveCost ext ct e xj (xj + pj) cj := by rw [hpa]; exact c2 (hpa ▸ h0)
        by_cases h1 : aj = 0
        · refine ⟨cj, fun h => absurd h hs, fun _ => ?_, ?_⟩
          · rw [h1, add_zero]; exact m1
          · rw [if_neg h0]; linarith
        have m2 := c4 h1
        have hact : e.actionable = true := by
          rcases k1 with h | ⟨h, -, -⟩
          · exact absurd (by linarith) h0
          · exact h
        obtain ⟨d, d1, d2⟩ := moveCost_triangle hlog hmul (fun hl y hy q hq => hlt hl j e xj y q e1 e2 hact (by
          rcases hy with rfl | rfl | rfl
          · exact Or.inl rfl
          · rcases k1 with h | ⟨-, h, -⟩
            · exact Or.inl h
            · exact Or.inr h
          · rcases permitted_trans k1 k2 with h | ⟨-, h, -⟩
            · exact Or.inl h
            · exact Or.inr h) hq) m1 m2
        refine ⟨d, fun h => absurd h hs, fun _ => ?_, ?_⟩
        · rw [← add_assoc]; exact d1
        · rw [if_neg h0]; exact d2
      obtain ⟨d, hd⟩ := main
      refine ⟨d, fun e' xj' pj' aj' cj1 cj2 g1 g2 g3 g4 g5 g6 => ?_⟩
      rw [e1] at g1; cases g1
      rw [e2] at g2; cases g2
      rw [e3] at g3; cases g3
      rw [e4] at g4; cases g4
      rw [e5] at g5; cases g5
      rw [e6] at g6; cases g6
      exact hd
    · refine ⟨0, fun e' xj' pj' aj' cj1 cj2 g1 g2 => ?_⟩
      exact absurd (List.getElem?_eq_some_iff.mp g2).1 hj
  choose d hd using key
  have hdl : ((List.range x.length).map d).length = x.length := by simp
  have hget : ∀ (j : ℕ) (c : K), ((List.range x.length).map d)[j]? = some c → j < x.length ∧ c = d j := by
    intro j c h
    have hj : j < x.length := by rw [← hdl]; exact (List.getElem?_eq_some_iff.mp h).1
    refine ⟨hj, ?_⟩
    rw [List.getElem?_map, List.getElem?_range hj] at h
    exact (Option.some.inj h).symm
  refine ⟨(List.range x.length).map d, ⟨hdl, ?_⟩, ?_⟩
  · intro j e xj mj c he hx hm hcj
    obtain ⟨pj, aj, h1, h2, rfl⟩ := vadd_get_inv hm
    obtain ⟨hj, rfl⟩ := hget j c hcj
    have := hd j e xj pj aj _ _ he hx h1 h2 (List.getElem?_eq_getElem (by omega)) (List.getElem?_eq_getElem (by omega))
    exact ⟨this.1, this.2.1⟩
  · have hdone : (doneCosts p cs).length = x.length := by
      unfold doneCosts; rw [List.length_zipWith, hpl, hcl]; simp
    refine sum_le_two (hdl.trans hdone.symm) (hdl.trans hcl'.symm) fun j u v w h1 h2 h3 => ?_
    obtain ⟨hj, rfl⟩ := hget j u h1
    have g := doneCosts_get (List.getElem?_eq_getElem (l := p) (i := j) (by omega))
      (List.getElem?_eq_getElem (l := cs) (i := j) (by omega))
    rw [g] at h2; cases h2
    exact (hd j _ _ _ _ _ _ (List.getElem?_eq_getElem (l := A.elems) (by omega)) (List.getElem?_eq_getElem hj)
      (List.getElem?_eq_getElem (l := p) (by omega)) (List.getElem?_eq_getElem (l := a') (by omega))
      (List.getElem?_eq_getElem (l := cs) (by omega)) h3).2.2

/-- The reported costs of an answer are not negative. -/
theorem fit_costs_nonneg {a cs : List K} (hso : SetOrderOk ext) (ho : o.Exact) (hr : b0.Reachable ext)
    (hx : b0.setX ext x = (b1, .ok ())) (ha : b1.After o b2) (hf : b2.fit o = .ok (b3, i))
    (hi : i.feasible = true) (ha' : i.actions = some a) (hcs : i.costs = some cs) (hlen : cs.length = a.length) :
    ∀ (j : ℕ) (cj : K), cs[j]? = some cj → 0 ≤ cj := by
  obtain ⟨-, -, a0, cs0, -, h1, h2, -, -, h3, -⟩ := fit_report hso ho hr hx ha hf hi
  rw [ha'] at h1; obtain rfl := Option.some.inj h1
  rw [hcs] at h2; obtain rfl := Option.some.inj h2
  intro j cj hj
  have hja : j < a.length := by rw [← hlen]; exact (List.getElem?_eq_some_iff.mp hj).1
  obtain ⟨k1, k2⟩ := h3 j _ cj (List.getElem?_eq_getElem hja) hj
  by_cases h : a[j] = 0
  · exact (k1 h).ge
  · exact (k2 h).le

/-- **C117**, cost types `total` and `local`.  Someone who is told to make the changes `a` at the costs `cs` makes a part `p` of
them, is still denied, and asks again (the same builder, or another one with the same data; regular situations, exact solvers):
there still is an answer, and it costs at most what the rest of the first advice would have cost.  If all actionable features
may be changed at once (the default), and, for type `local`, if the logarithm turns products into sums, it costs exactly that. -/
theorem C117_rest (hso : SetOrderOk ext) (hlog : LogOk ext) (ho : o.Exact) (ho' : o'.Exact)
    (hr : b0.Reachable ext) (hreg : Regular ext b0 x) (hden : Denied b0 x) (hct : b0.costType ≠ .max)
    (hx : b0.setX ext x = (b1, .ok ())) (hb : b1.Refitted o b2) (hf : b2.fit o = .ok (b3, i)) (hi : i.feasible = true)
    (ha : i.actions = some a) (hcs : i.costs = some cs) (hp : PartOf a p)
    (hrd : d0.Reachable ext) (hA : d0.aset = b0.aset) (hw : d0.coefs = b0.coefs) (ht : d0.intercept = b0.intercept)
    (hc : d0.costType = b0.costType) (hm : d0.maxItems = b0.maxItems)
    (hregd : Regular ext d0 (vadd x p)) (hdend : Denied d0 (vadd x p))
    (hxd : d0.setX ext (vadd x p) = (d1, .ok ())) (hd : d1.Refitted o' d2) (hfd : d2.fit o' = .ok (d3, i')) :
    i'.feasible = true ∧ ∃ c', i'.cost = .fin c' ∧ c' ≤ (restCosts p cs).sum ∧
      (numActionable b0.aset ≤ b0.maxItems →
        (b0.costType = .loc → ∀ r s : K, 0 < r → 0 < s → ext.log (r * s) = ext.log r + ext.log s) →
        c' = (restCosts p cs).sum) := by
  obtain ⟨c, a0, cs0, k1, k2, k3, k4, k5, k6, k7⟩ := C26_sum_minimal hso hlog ho hr hreg hden hct hx hb hf hi
  rw [ha] at k2; obtain rfl := Option.some.inj k2
  rw [hcs] at k3; obtain rfl := Option.some.inj k3
  have hal := k4.permitted.1
  have hpl : p.length = x.length := hp.1.trans hal
  have hxl : (vadd x p).length = x.length := vadd_length x p hpl
  have hrl : (restOf a p).length = (vadd x p).length := by rw [hp.rest_length, hxl, hal]
  have hscore : ReachesScore d0.aset.yDesired d0.coefs d0.intercept (vadd x p) (restOf a p) := by
    rw [hA, hw, ht]
    have := k4.score
    unfold ReachesScore at this ⊢
    rw [vadd_assoc, hp.whole]; exact this
  have hrest : IsLimitedRecourse d0.aset d0.coefs d0.intercept (vadd x p) (restOf a p) 1 d0.maxItems := by
    have := hp.rest_recourse k4 (numChanged_pos hrd.ok.aset.wf.y hdend hrl hscore)
    rw [hA, hw, ht, hm]; exact this
  have hrc : ActionCosts ext d0.costType d0.aset (vadd x p) (restOf a p) (restCosts p cs) := by
    rw [hA, hc]; exact hp.rest_costs hal k5
  have hi' : i'.feasible = true := by
    have := (C25_no_recourse hso hlog ho' hrd hregd hdend hxd hd hfd).1
    cases hq : i'.feasible with
    | true => rfl
    | false => exact absurd ⟨_, hrest⟩ (this.mp hq)
  obtain ⟨c', a', cs', g1, g2, g3, g4, g5, g6, g7⟩ :=
    C26_sum_minimal hso hlog ho' hrd hregd hdend (by rw [hc]; exact hct) hxd hd hfd hi'
  refine ⟨hi', c', g1, g7 _ _ hrest hrc, fun hmax hmul => ?_⟩
  refine le_antisymm (g7 _ _ hrest hrc) ?_
  have hel : b0.aset.elems.length = x.length := by
    obtain ⟨feats, h1, -⟩ := Posed.setX hso hr.ok hx
    obtain ⟨-, hxl, -⟩ := buildInfo_spec hso hr.ok h1
    rw [hr.ok.aset.wf.length, hxl]
  have hcl : cs.length = a.length := by rw [k5.1, hal]
  have n1 := fit_costs_nonneg hso ho hr hx hb.after hf hi ha hcs hcl
  have n2 := fit_costs_nonneg hso ho' hrd hxd hd.after hfd hi' g2 g3 (by rw [g5.1, g4.permitted.1])
  obtain ⟨m1, ds, m2, m3⟩ := merged_costs hel (fun _ => hlog) hmul hreg.below hp k4.permitted k5 n1
    (by rw [← hA]; exact g4.permitted) (by rw [← hA, ← hc]; exact g5) n2
  have hms : ReachesScore b0.aset.yDesired b0.coefs b0.intercept x (vadd p a') := by
    have := g4.score
    rw [hA, hw, ht] at this
    unfold ReachesScore at this ⊢
    rw [← vadd_assoc]; exact this
  have hml : RespectsLimits b0.aset x (vadd p a') := by
    have := g4.limits
    rw [hA] at this
    intro k hk
    have := this k hk
    unfold numNonzero at this ⊢
    rw [← vadd_assoc]; exact this
  have hmr : IsLimitedRecourse b0.aset b0.coefs b0.intercept x (vadd p a') 1 b0.maxItems :=
    ⟨⟨m1, numChanged_pos hr.ok.aset.wf.y hden m1.1 hms, le_trans (numChanged_le_actionable hel m1) hmax, hms⟩, hml⟩
  have h1 := k7 _ _ hmr m2
  have h2 := rest_done_sum (p := p) (cs := cs) (by rw [hpl, k5.1])
  rw [k6] at h1
  rw [g6]
  linarith

/-- **C117**, cost type `max`: the same, where the new maximal cost exceeds every bound of the costs of the rest by less than
every cost step, and does not exceed it at all if distinct costs differ by at least some cost step. -/
theorem C117_rest_max (hso : SetOrderOk ext) (hlog : LogOk ext) (ho : o.Exact) (ho' : o'.Exact)
    (hr : b0.Reachable ext) (hreg : Regular ext b0 x) (hden : Denied b0 x) (hct : b0.costType = .max)
    (hx : b0.setX ext x = (b1, .ok ())) (hb : b1.Refitted o b2) (hf : b2.fit o = .ok (b3, i)) (hi : i.feasible = true)
    (ha : i.actions = some a) (hcs : i.costs = some cs) (hp : PartOf a p)
    (hrd : d0.Reachable ext) (hA : d0.aset = b0.aset) (hw : d0.coefs = b0.coefs) (ht : d0.intercept = b0.intercept)
    (hc : d0.costType = b0.costType) (hm : d0.maxItems = b0.maxItems)
    (hregd : Regular ext d0 (vadd x p)) (hdend : Denied d0 (vadd x p))
    (hxd : d0.setX ext (vadd x p) = (d1, .ok ())) (hd : d1.Refitted o' d2) (hfd : d2.fit o' = .ok (d3, i')) :
    i'.feasible = true ∧ ∃ c', i'.cost = .fin c' ∧ ∀ M, (∀ v ∈ restCosts p cs, v ≤ M) →
      (∀ γ, CostStep ext d0 (vadd x p) γ → c' < M + γ) ∧
      (∀ γ, CostStep ext d0 (vadd x p) γ → (∀ g g', SomeMoveCost ext d0 (vadd x p) g →
        SomeMoveCost ext d0 (vadd x p) g' → g < g' → γ ≤ g' - g) → c' ≤ M) := by
  obtain ⟨c, a0, cs0, k1, k2, k3, k4, k5, -⟩ := C27_max_partial hso hlog ho hr hreg hden hct hx hb hf hi
  rw [ha] at k2; obtain rfl := Option.some.inj k2
  rw [hcs] at k3; obtain rfl := Option.some.inj k3
  have hal := k4.permitted.1
  have hpl : p.length = x.length := hp.1.trans hal
  have hxl : (vadd x p).length = x.length := vadd_length x p hpl
  have hrl : (restOf a p).length = (vadd x p).length := by rw [hp.rest_length, hxl, hal]
  have hscore : ReachesScore d0.aset.yDesired d0.coefs d0.intercept (vadd x p) (restOf a p) := by
    rw [hA, hw, ht]
    have := k4.score
    unfold ReachesScore at this ⊢
    rw [vadd_assoc, hp.whole]; exact this
  have hone := numChanged_pos hrd.ok.aset.wf.y hdend hrl hscore
  have hrest : IsLimitedRecourse d0.aset d0.coefs d0.intercept (vadd x p) (restOf a p) 1 d0.maxItems := by
    have := hp.rest_recourse k4 hone
    rw [hA, hw, ht, hm]; exact this
  have hrc : ActionCosts ext d0.costType d0.aset (vadd x p) (restOf a p) (restCosts p cs) := by
    rw [hA, hc]; exact hp.rest_costs hal k5
  have hi' : i'.feasible = true := by
    have := (C25_no_recourse hso hlog ho' hrd hregd hdend hxd hd hfd).1
    cases hq : i'.feasible with
    | true => rfl
    | false => exact absurd ⟨_, hrest⟩ (this.mp hq)
  obtain ⟨c', a', cs', g1, -, -, -, -, -, -, g8⟩ :=
    C27_max_partial hso hlog ho' hrd hregd hdend (hc.trans hct) hxd hd hfd hi'
  have hne : restCosts p cs ≠ [] := by
    intro h
    have e := hrc.1
    rw [h] at e
    have : restOf a p = [] := List.eq_nil_of_length_eq_zero (by rw [hrl, ← e]; rfl)
    rw [this] at hone
    simp [numChanged] at hone
  refine ⟨hi', c', g1, fun M hM => ?_⟩
  obtain ⟨q1, q2⟩ := g8 _ _ _ hrest hrc (npMax_mem hne) (fun v hv => le_npMax hv)
  have hle := hM _ (npMax_mem hne)
  exact ⟨fun γ hγ => lt_of_lt_of_le (q1 γ hγ) (by linarith), fun γ hγ hs => le_trans (q2 γ hγ hs) hle⟩

/-- Non-vacuity of C117: both of two binary features have to be changed; after changing one, changing the other is left, at half
of the costs. -/
theorem C117_example (be : Backend) : ∃ b0 b1 d1 : Builder ℚ, b0.Reachable exExt ∧ b0.costType = .total ∧
    Regular exExt b0 [0, 0] ∧ Denied b0 [0, 0] ∧ Regular exExt b0 (vadd [0, 0] [1, 0]) ∧ Denied b0 (vadd [0, 0] [1, 0]) ∧
    numActionable b0.aset ≤ b0.maxItems ∧ b0.setX exExt [0, 0] = (b1, .ok ()) ∧
    b0.setX exExt (vadd [0, 0] [1, 0]) = (d1, .ok ()) ∧ PartOf [1, 1] ([1, 0] : List ℚ) ∧
    ∀ o o' : Oracle ℚ, o.Exact → o'.Exact → ∃ b3 d3 i i' cs, b1.fit o = .ok (b3, i) ∧ d1.fit o' = .ok (d3, i') ∧
      i.feasible = true ∧ i.actions = some [1, 1] ∧ i.costs = some cs ∧ (restCosts [1, 0] cs).sum = 500000 / 1000001 ∧
      i.cost = .fin (1000000 / 1000001) ∧ i'.actions = some [0, 1] ∧ i'.cost = .fin (500000 / 1000001) := by
  have key : ∀ be, ∃ b0 : Builder ℚ,
      exBuilderE be .total [[0, 0], [1, 1]] ["a", "b"] .ok [1, 1] (-2) = .ok b0 ∧ b0.costType = .total ∧
      regularB exExt b0 [0, 0] = true ∧ Denied b0 [0, 0] ∧ (b0.setX exExt [0, 0]).2 = .ok () ∧
      regularB exExt b0 [1, 0] = true ∧ Denied b0 [1, 0] ∧ (b0.setX exExt [1, 0]).2 = .ok () ∧
      numActionable b0.aset ≤ b0.maxItems ∧
      admitted (b0.buildArgs [0, 0] (b0.setX exExt [0, 0]).1.feats) (fun _ => true) ≠ [] ∧
      (∀ κ ∈ optChoices (b0.buildArgs [0, 0] (b0.setX exExt [0, 0]).1.feats) (fun _ => true),
        actVec b0.coefs.length (b0.setX exExt [0, 0]).1.feats κ = [1, 1] ∧
        cstVec b0.coefs.length (b0.setX exExt [0, 0]).1.feats κ = [500000 / 1000001, 500000 / 1000001] ∧
        choiceSum (b0.setX exExt [0, 0]).1.feats κ = 1000000 / 1000001) ∧
      admitted (b0.buildArgs [1, 0] (b0.setX exExt [1, 0]).1.feats) (fun _ => true) ≠ [] ∧
      (∀ κ ∈ optChoices (b0.buildArgs [1, 0] (b0.setX exExt [1, 0]).1.feats) (fun _ => true),
        actVec b0.coefs.length (b0.setX exExt [1, 0]).1.feats κ = [0, 1] ∧
        choiceSum (b0.setX exExt [1, 0]).1.feats κ = 500000 / 1000001) := by
    intro be; cases be <;> decide +kernel
  obtain ⟨b0, h1, h2, h3, h4, h5, h6, h7, h8, h9, h10, h11, h12, h13⟩ := key be
  have hr : b0.Reachable exExt := exBuilderE_reachable h1 fun A A' => prep_ok
  have hv : vadd [0, 0] [1, 0] = ([1, 0] : List ℚ) := by decide +kernel
  obtain ⟨b1, hs⟩ : ∃ b1, b0.setX exExt [0, 0] = (b1, .ok ()) := ⟨_, Prod.ext rfl h5⟩
  obtain ⟨d1, hd⟩ : ∃ b1, b0.setX exExt [1, 0] = (b1, .ok ()) := ⟨_, Prod.ext rfl h8⟩
  rw [hv]
  refine ⟨b0, b1, d1, hr, h2, regular_of_b hr.ok exExt_pos h3, h4, regular_of_b hr.ok exExt_pos h6, h7, h9, hs, hd, ?_,
    fun o o' ho ho' => ?_⟩
  · refine ⟨rfl, fun j aj pj ha hp => ?_⟩
    match j, ha, hp with
    | 0, ha, hp => cases ha; cases hp; exact Or.inr rfl
    | 1, ha, hp => cases ha; cases hp; exact Or.inl rfl
    | (n + 2), ha, _ => simp at ha
  obtain ⟨b1', feats, g1, -, g2, b3, i, g3, g4⟩ := exSolve exExt_order hr h5 ho
  rw [hs] at g1; cases g1
  obtain ⟨d1', feats', k1, -, k2, d3, i', k3, k4⟩ := exSolve exExt_order hr h8 ho'
  rw [hd] at k1; cases k1
  rw [g2] at h10 h11
  rw [k2] at h12 h13
  rcases g4 with ⟨h, -⟩ | ⟨κ, hκ, -, gf, ga, gcs, gc, -⟩
  · exact absurd h h10
  rcases k4 with ⟨h, -⟩ | ⟨κ', hκ', -, kf, ka, -, kc, -⟩
  · exact absurd h h12
  obtain ⟨e1, e2, e3⟩ := h11 κ hκ
  obtain ⟨e4, e5⟩ := h13 κ' hκ'
  refine ⟨b3, d3, i, i', _, g3, k3, gf, by rw [ga, e1], gcs, ?_, ?_, by rw [ka, e4], ?_⟩
  · rw [e2]; decide +kernel
  · rw [gc]; simp [h2, e3]
  · rw [kc]; simp [h2, e5]

end Recourse
