import Verif.Model.FloatAudit
import Verif.Props.FloatConverse
import Verif.Props.Audit

/-!
# C108: audits in floating point arithmetic
-/

set_option linter.unusedSectionVars false

namespace Recourse

variable {K : Type} [Field K] [LinearOrder K] [IsStrictOrderedRing K] [FloorRing K]

variable {ext : Ext K} {o : Oracle K} {b0 b b' : Builder K} {ad ad' : Auditor K} {x : List K} {y : Int} {r : Rounding K} {dA dB : List K → K}

/-! ## The builder between two rows -/

theorem SameSetup.buildInfoFl (h : SameSetup ext b b') (r : Rounding K) (x : List K) : b'.buildInfoFl r ext x = b.buildInfoFl r ext x := by
  have hc : b'.aset.cons = b.aset.cons := by
    have := congrArg ActionSet.cons h.aset; exact this
  have hy : b'.aset.yDesired = b.aset.yDesired := by
    have := congrArg ActionSet.yDesired h.aset; exact this
  have hg : b'.aset.feasibleGrid ext x true true = b.aset.feasibleGrid ext x true true := by
    rw [← feasibleGrid_norm, h.aset, feasibleGrid_norm]
  have hm : mkFeatFl r ext b' x b'.aset.cons.flatNames = mkFeatFl r ext b x b.aset.cons.flatNames := by
    funext g
    unfold mkFeatFl
    rw [h.costType, h.varNames, h.coefs, hc]
  unfold Builder.buildInfoFl
  dsimp only
  rw [hg, hm, hy, hc]

theorem setXFl_cases (r : Rounding K) (ext : Ext K) (b : Builder K) (d : K) (x : List K) :
    (x.length ≠ b.coefs.length ∧ b.setXFl r ext d x = (b, .error .assertion)) ∨
    (x.length = b.coefs.length ∧ ∃ er, b.buildInfoFl r ext x = .error er ∧
      b.setXFl r ext d x = ({ b with x := some x, aset := b.aset.visit ext (b.aset.visitOrder ext) }, .error er)) ∨
    (x.length = b.coefs.length ∧ ∃ feats er, b.buildInfoFl r ext x = .ok feats ∧
      buildMip b.backend { b.buildArgs x feats with score := b.scoreFl r d } = .error er ∧
      b.setXFl r ext d x = ({ b with x := some x, aset := b.aset.touch ext true }, .error er)) ∨
    (x.length = b.coefs.length ∧ ∃ feats m, b.buildInfoFl r ext x = .ok feats ∧
      buildMip b.backend { b.buildArgs x feats with score := b.scoreFl r d } = .ok m ∧
      b.setXFl r ext d x = ({ b with
        x := some x, aset := b.aset.touch ext true, mip := some m, feats := feats, sol := .unknown }, .ok ())) := by
  by_cases hl : x.length ≠ b.coefs.length
  · left; exact ⟨hl, by unfold Builder.setXFl; rw [if_pos hl]⟩
  right
  have hl' : x.length = b.coefs.length := not_not.mp hl
  unfold Builder.setXFl
  rw [if_neg hl]
  dsimp only
  have hbi : ({ b with x := some x } : Builder K).buildInfoFl r ext x = b.buildInfoFl r ext x := rfl
  rw [hbi]
  cases hb : b.buildInfoFl r ext x with
  | error e => left; exact ⟨hl', e, rfl, rfl⟩
  | ok feats =>
    right
    dsimp only
    have hba : ({ ({ b with x := some x, aset := b.aset.touch ext true } : Builder K).buildArgs x feats with
        score := ({ b with x := some x, aset := b.aset.touch ext true } : Builder K).scoreFl r d } : BuildArgs K)
        = { b.buildArgs x feats with score := b.scoreFl r d } := rfl
    rw [hba]
    cases hm : buildMip b.backend { b.buildArgs x feats with score := b.scoreFl r d } with
    | error e => left; exact ⟨hl', feats, e, rfl, hm, rfl⟩
    | ok m => right; exact ⟨hl', feats, m, rfl, hm, rfl⟩

theorem SameSetup.setXFl (hlen : b.aset.elems.length = b.aset.names.length) (d : K) (x : List K) :
    SameSetup ext b (b.setXFl r ext d x).1 := by
  rcases setXFl_cases r ext b d x with ⟨-, h⟩ | ⟨-, er, -, h⟩ | ⟨-, f, er, -, -, h⟩ | ⟨-, f, m, -, -, h⟩ <;> rw [h]
  · exact SameSetup.refl ext b
  · exact ⟨rfl, rfl, rfl, rfl, rfl, rfl, rfl, norm_visit ext _ _⟩
  · exact ⟨rfl, rfl, rfl, rfl, rfl, rfl, rfl, norm_touch hlen true⟩
  · exact ⟨rfl, rfl, rfl, rfl, rfl, rfl, rfl, norm_touch hlen true⟩

theorem SameSetup.lengths (h : SameSetup ext b b') (hlen : b.aset.elems.length = b.aset.names.length) :
    b'.aset.elems.length = b'.aset.names.length := by
  have h1 : (b'.aset.norm ext).elems.length = (b.aset.norm ext).elems.length := by rw [h.aset]
  have h2 : (b'.aset.norm ext).names = (b.aset.norm ext).names := by rw [h.aset]
  have h3 : b'.aset.names = b.aset.names := h2
  have h4 : b'.aset.elems.length = b.aset.elems.length := by simpa [ActionSet.norm] using h1
  rw [h3, h4, hlen]

/-- An assignment and a fit on a builder that was used before give what the unused builder gives. -/
theorem SameSetup.fitFl (h : SameSetup ext b0 b) {d : K} {b1 b2 : Builder K} {i : Info K}
    (hx : b.setXFl r ext d x = (b1, .ok ())) (hf : b1.fit o = .ok (b2, i)) :
    ∃ (n : ℕ) (c1 c2 : Builder K), b0.setXFl r ext d x = (c1, .ok ()) ∧ c1.fit (o.at n) = .ok (c2, i) := by
  obtain ⟨feats, m, hxl, hbi, hm, rfl⟩ := setXFl_ok hx
  rw [h.buildInfoFl] at hbi
  rw [h.buildArgs, h.backend] at hm
  have hsc : b.scoreFl r d = b0.scoreFl r d := by unfold Builder.scoreFl; rw [h.intercept]
  rw [hsc] at hm
  rcases setXFl_cases r ext b0 d x with ⟨h1, -⟩ | ⟨-, er, h1, -⟩ | ⟨-, f, er, h1, h2, -⟩ | ⟨-, f, m', h1, h2, h3⟩
  · exact absurd (by rw [hxl, h.coefs]) h1
  · rw [hbi] at h1; cases h1
  · rw [hbi] at h1; cases h1; rw [hm] at h2; cases h2
  · rw [hbi] at h1; cases h1; rw [hm] at h2; cases h2
    obtain ⟨-, rfl, rfl⟩ := fit_ok hf
    refine ⟨b.clock, _, ({ b0 with x := some x, aset := b0.aset.touch ext true, mip := some m, feats := feats, sol := .unknown } : Builder K).solve
      (o.at b.clock), h3, ?_⟩
    have he : (({ b with x := some x, aset := b.aset.touch ext true, mip := some m, feats := feats, sol := .unknown } : Builder K).solve o).solutionInfo
        = (({ b0 with x := some x, aset := b0.aset.touch ext true, mip := some m, feats := feats, sol := .unknown } : Builder K).solve
          (o.at b.clock)).solutionInfo := by
      unfold Builder.solve Builder.solutionInfo Builder.reported Oracle.at
      dsimp only
      rw [h.backend, h.coefs, h.costType]
    rw [he]
    rfl

/-- An entry of an audit in floating point arithmetic: what `fit()` reports at `x` on the builder as it was before the audit. -/
def EntryFl (r : Rounding K) (ext : Ext K) (o : Oracle K) (b0 : Builder K) (d : K) (x : List K) (row : AuditRow K) : Prop :=
  ∃ (n : ℕ) (b1 b' : Builder K) (i : Info K), b0.setXFl r ext d x = (b1, .ok ()) ∧ b1.fit (o.at n) = .ok (b', i) ∧
    row = ⟨some i.feasible, i.cost⟩

theorem auditLoopFl_spec (hlen : b0.aset.elems.length = b0.aset.names.length) {sel : List (ℕ × List K)} (hs : SameSetup ext b0 b)
    {out : List (ℕ × AuditRow K)} (h : auditLoopFl r ext o dB b sel = (b', .ok out)) :
    SameSetup ext b0 b' ∧ out.map (·.1) = sel.map (·.1) ∧
      ∀ (k : ℕ) (p : ℕ × List K) (q : ℕ × AuditRow K), sel[k]? = some p → out[k]? = some q →
        EntryFl r ext o b0 (dB p.2) p.2 q.2 := by
  induction sel generalizing b out with
  | nil =>
    unfold auditLoopFl at h; cases h
    exact ⟨hs, rfl, fun k p q hp => by simp at hp⟩
  | cons p sel ih =>
    obtain ⟨j, x⟩ := p
    unfold auditLoopFl at h
    have hs1 := hs.trans (SameSetup.setXFl (r := r) (hs.lengths hlen) (dB x) x)
    cases hx : b.setXFl r ext (dB x) x with
    | mk b1 res =>
      rw [hx] at h hs1
      cases res with
      | error er => cases h
      | ok _ =>
        dsimp only at h hs1
        cases hf : b1.fit o with
        | error er => rw [hf] at h; cases h
        | ok pr =>
          obtain ⟨b2, i⟩ := pr
          rw [hf] at h
          dsimp only at h
          obtain ⟨n, c1, c2, e1, e2⟩ := hs.fitFl hx hf
          have hs2 : SameSetup ext b0 b2 := by
            obtain ⟨-, rfl, -⟩ := fit_ok hf
            exact hs1.trans (SameFixed.solve _ _).setup
          cases hl : auditLoopFl r ext o dB b2 sel with
          | mk b3 res =>
            rw [hl] at h
            cases res with
            | error er => cases h
            | ok out' =>
              cases h
              obtain ⟨g1, g2, g3⟩ := ih hs2 hl
              refine ⟨g1, by simp [g2], fun k p q hp hq => ?_⟩
              cases k with
              | zero => simp at hp hq; subst hp hq; exact ⟨n, c1, c2, i, e1, e2, rfl⟩
              | succ k => exact g3 k p q (by simpa using hp) (by simpa using hq)

/-- A successful audit. -/
theorem auditFl_ok {ι : Type} {X : List (ι × List K)} {T : List (ι × AuditRow K)}
    (hlen : ad.builder.aset.elems.length = ad.builder.aset.names.length) (h : ad.auditFl r ext o dA dB X y = (ad', .ok T)) :
    ∃ g : List K → AuditRow K, T = X.map (fun p => (p.1, g p.2)) ∧
      ∀ p ∈ X, (ad.selectedFl y (dA p.2) = false → g p.2 = ⟨none, .nan⟩) ∧
        (ad.selectedFl y (dA p.2) = true → EntryFl r ext o ad.builder (dB p.2) p.2 (g p.2)) := by
  unfold Auditor.auditFl at h
  by_cases h0 : X.isEmpty = true
  · rw [if_pos h0] at h; cases h
  rw [if_neg h0] at h
  by_cases h1 : (X.any fun r => decide (r.2.length ≠ ad.coefs.length)) = true
  · rw [if_pos h1] at h; cases h
  rw [if_neg h1] at h
  by_cases h2 : ¬ (y = 1 ∨ y = -1 ∨ y = 0)
  · rw [if_pos h2] at h; cases h
  rw [if_neg h2] at h
  dsimp only at h
  change (match auditLoopFl r ext o dB ad.builder (selRows (uniqueRows (X.map (·.2))) (fun v => ad.selectedFl y (dA v))) with
    | (b, .error er) => _ | (b, .ok out) => _) = _ at h
  cases hl : auditLoopFl r ext o dB ad.builder (selRows (uniqueRows (X.map (·.2))) (fun v => ad.selectedFl y (dA v))) with
  | mk b res =>
    rw [hl] at h
    cases res with
    | error er => cases h
    | ok out =>
      dsimp only at h
      obtain ⟨-, g2, g3⟩ := auditLoopFl_spec hlen (SameSetup.refl ext _) hl
      by_cases h3 : out.isEmpty = true
      · rw [if_pos h3] at h; cases h
      rw [if_neg h3] at h
      cases h
      refine ⟨fun v => (out.lookup ((uniqueRows (X.map (·.2))).idxOf v)).getD ⟨none, .nan⟩, rfl, ?_⟩
      intro p hp
      have hpU : p.2 ∈ uniqueRows (X.map (·.2)) := mem_uniqueRows.mpr (List.mem_map_of_mem hp)
      have hidx := List.getElem?_eq_some_iff.mpr ⟨List.idxOf_lt_length_iff.mpr hpU, List.getElem_idxOf (List.idxOf_lt_length_iff.mpr hpU)⟩
      constructor
      · intro hs
        dsimp only
        rw [lookup_none]; · rfl
        rw [g2]
        intro hmem
        obtain ⟨q, hq, hqe⟩ := List.mem_map.mp hmem
        obtain ⟨e1, e2⟩ := mem_selRows.mp hq
        rw [hqe, hidx] at e1
        rw [← Option.some.inj e1, hs] at e2; cases e2
      · intro hs
        have hq : ((uniqueRows (X.map (·.2))).idxOf p.2, p.2) ∈
            selRows (uniqueRows (X.map (·.2))) (fun v => ad.selectedFl y (dA v)) := mem_selRows.mpr ⟨hidx, hs⟩
        obtain ⟨k, hk⟩ := List.mem_iff_getElem?.mp hq
        have hln : out.length = (selRows (uniqueRows (X.map (·.2))) (fun v => ad.selectedFl y (dA v))).length := by
          have := congrArg List.length g2
          simpa using this
        have hk' : k < out.length := by rw [hln]; exact (List.getElem?_eq_some_iff.mp hk).1
        have hko := List.getElem?_eq_getElem hk'
        have hfst : (out[k]).1 = (uniqueRows (X.map (·.2))).idxOf p.2 := by
          have e1 : (out.map (·.1))[k]? = some (out[k]).1 := by rw [List.getElem?_map, hko]; rfl
          have e2 : ((selRows (uniqueRows (X.map (·.2))) (fun v => ad.selectedFl y (dA v))).map (·.1))[k]?
              = some ((uniqueRows (X.map (·.2))).idxOf p.2) := by rw [List.getElem?_map, hk]; rfl
          rw [g2, e2] at e1
          exact (Option.some.inj e1).symm
        have hlook := lookup_of_getElem? (by rw [g2]; exact nodup_selRows _ _) hko
        rw [hfst] at hlook
        dsimp only
        rw [hlook]
        exact g3 k _ _ hk hko

/-! ## C108 -/

/-- **C108**, link to the other properties: without rounding the audit is the one all other properties speak about. -/
theorem C108_exact {ι : Type} (ext : Ext K) (o : Oracle K) (ad : Auditor K) (hb : ad.builder.coefs = ad.coefs) (X : List (ι × List K)) (y : Int)
    (hA : ∀ v, FlDot .exact v ad.coefs (dA v)) (hB : ∀ v, FlDot .exact ad.coefs v (dB v)) :
    ad.auditFl .exact ext o dA dB X y = ad.audit ext o X y := by
  have hsel : ∀ v, ad.selectedFl y (dA v) = ad.selected y v := by
    intro v
    have : dA v = dot v ad.coefs := by
      have := (hA v).error
      unfold dotError at this
      simp only [Rounding.exact, add_zero, one_pow, sub_self, zero_mul] at this
      exact sub_eq_zero.mp (abs_nonpos_iff.mp this)
    unfold Auditor.selectedFl Auditor.selected
    rw [this]
  have hloop : ∀ (sel : List (ℕ × List K)) (b : Builder K), b.coefs = ad.coefs → auditLoopFl .exact ext o dB b sel = auditLoop ext o b sel := by
    intro sel
    induction sel with
    | nil => intro b _; rfl
    | cons p sel ih =>
      intro b hb
      unfold auditLoopFl auditLoop
      rw [C105_exact ext b p.2 (by rw [hb]; exact hB p.2)]
      have hc : (b.setX ext p.2).1.coefs = b.coefs := by
        rcases setX_cases ext b p.2 with ⟨-, h⟩ | ⟨-, er, -, h⟩ | ⟨-, f, er, -, -, h⟩ | ⟨-, f, m, -, -, h⟩ <;> rw [h]
      cases hx : b.setX ext p.2 with
      | mk b1 res =>
        rw [hx] at hc
        cases res with
        | error er => rfl
        | ok _ =>
          dsimp only
          cases hf : b1.fit o with
          | error er => rfl
          | ok pr =>
            obtain ⟨b2, i⟩ := pr
            dsimp only
            have : b2.coefs = ad.coefs := by
              obtain ⟨-, rfl, -⟩ := fit_ok hf
              rw [(SameFixed.solve o b1).coefs, ← hb]; exact hc
            rw [ih b2 this]
            rfl
  unfold Auditor.auditFl Auditor.audit
  simp only [hsel]
  rw [hloop _ _ hb]
  rfl

variable {ι : Type} {X : List (ι × List K)} {T : List (ι × AuditRow K)}

theorem Oracle.SoundUpTo.at {ε δ : K} (h : o.SoundUpTo ε δ) (n : ℕ) : (o.at n).SoundUpTo ε δ := fun _ m => h n m

/-- **C108**, rows.  An audit computed with rounding has one entry per row, under the row's label; equal rows have equal entries; an entry is empty
exactly if the row has the outcome asked for, whenever the row's score exceeds the rounding error of the dot product; an entry that is not empty says `feasible` and
has a cost, or says that there is no recourse and has an infinite cost. -/
theorem C108_rows (hb : AnyGrids ad.builder) (h : ad.auditFl r ext o dA dB X y = (ad', .ok T)) :
    T.map (·.1) = X.map (·.1) ∧
    (∀ (k l : ℕ) (p q : ι × List K) (e f : ι × AuditRow K), X[k]? = some p → X[l]? = some q →
      T[k]? = some e → T[l]? = some f → p.2 = q.2 → e.2 = f.2) ∧
    ∀ (k : ℕ) (l l' : ι) (x : List K) (row : AuditRow K), X[k]? = some (l, x) → T[k]? = some (l', row) →
      (FlDot r x ad.coefs (dA x) → dotError r x ad.coefs < |dot x ad.coefs + ad.intercept| →
        (row.feasible = none ↔ HasOutcome y ad.coefs ad.intercept x)) ∧
      (row.feasible = none ↔ row.cost = .nan) ∧ (row.feasible = some false ↔ row.cost = .inf) := by
  obtain ⟨g, rfl, hg⟩ := auditFl_ok hb.columns.length h
  refine ⟨by rw [List.map_map]; rfl, ?_, ?_⟩
  · intro k l p q e f hp hq he hf hpq
    rw [List.getElem?_map, hp] at he
    rw [List.getElem?_map, hq] at hf
    cases he; cases hf
    dsimp only
    rw [hpq]
  · intro k l l' x row hX hT
    rw [List.getElem?_map, hX] at hT
    cases hT
    obtain ⟨h1, h2⟩ := hg _ (List.mem_of_getElem? hX)
    dsimp only at h1 h2
    have hshape : (ad.selectedFl y (dA x) = false ∧ g x = ⟨none, .nan⟩) ∨
        (ad.selectedFl y (dA x) = true ∧ (g x = ⟨some false, .inf⟩ ∨ ∃ c, g x = ⟨some true, .fin c⟩)) := by
      cases hs : ad.selectedFl y (dA x) with
      | false => exact Or.inl ⟨rfl, h1 hs⟩
      | true =>
        obtain ⟨n, b1, b', i, -, hf, he⟩ := h2 hs
        right
        refine ⟨rfl, ?_⟩
        obtain ⟨-, -, rfl⟩ := fit_ok hf
        rw [he]
        unfold Builder.solutionInfo
        split
        · exact Or.inr ⟨_, rfl⟩
        · exact Or.inl rfl
    refine ⟨fun hd hm => ?_, ?_⟩
    · have e := C104_audit ad hm hd y
      rw [← selected_false_iff, ← e]
      rcases hshape with ⟨s1, s2⟩ | ⟨s1, s2 | ⟨c, s2⟩⟩ <;> rw [s1, s2] <;> simp
    · rcases hshape with ⟨s1, s2⟩ | ⟨s1, s2 | ⟨c, s2⟩⟩ <;> rw [s2] <;> simp

/-- What is known of an entry that is not empty. -/
theorem auditFl_entry (hb : AnyGrids ad.builder) (h : ad.auditFl r ext o dA dB X y = (ad', .ok T)) {k : ℕ} {l l' : ι} {row : AuditRow K}
    (hX : X[k]? = some (l, x)) (hT : T[k]? = some (l', row)) (hne : row.feasible ≠ none) : EntryFl r ext o ad.builder (dB x) x row := by
  obtain ⟨g, rfl, hg⟩ := auditFl_ok hb.columns.length h
  rw [List.getElem?_map, hX] at hT
  cases hT
  obtain ⟨h1, h2⟩ := hg _ (List.mem_of_getElem? hX)
  cases hs : ad.selectedFl y (dA x) with
  | false => rw [h1 hs] at hne; exact absurd rfl hne
  | true => exact h2 hs

/-- **C108**, recourse.  If an entry says `feasible`, there is an action that misses the desired score by at most the solver's tolerance and the rounding error of the score and is within
`ε + N · δ · (1 + u) · R + u · R` in each feature of an action that leads to grid values as permitted, changes between `max(min_items, 1)` and `max_items`
features, and respects the subset limits where these apply and rounding does not hide which features become 0. -/
theorem C108_feasible (hso : SetOrderOk ext) (hu : r.u < 1) {ε δ : K} (ho : o.SoundUpTo ε δ) (hε : 0 ≤ ε) (hδ : 0 ≤ δ)
    (hb : AnyGrids ad.builder) (hd : FlDot r ad.builder.coefs x (dB x)) (h : ad.auditFl r ext o dA dB X y = (ad', .ok T))
    {k : ℕ} {l l' : ι} {row : AuditRow K} (hX : X[k]? = some (l, x)) (hT : T[k]? = some (l', row)) (hf : row.feasible = some true)
    {N : ℕ} {R : K} (hN : GridSizes N ad.builder.aset) (hR : ChangesWithin R ad.builder.aset x) (ht : (N : K) * δ + ε < 1) :
    ∃ a a', NearAllowed (ε + scoreError r ad.builder x) (ε + (N : K) * δ * ((1 + r.u) * R) + r.u * R) ad.builder.aset ad.builder.coefs
      ad.builder.intercept x a a' (max ad.builder.minItems 1) ad.builder.maxItems ∧
      (LimitsApply ad.builder.aset x → KnowsZero r ad.builder.aset x → RespectsLimits ad.builder.aset x a') := by
  obtain ⟨n, b1, b', i, h1, h2, rfl⟩ := auditFl_entry hb h hX hT (by rw [hf]; simp)
  have hi : i.feasible = true := Option.some.inj hf
  obtain ⟨σ, hrep, rfl⟩ := fit_reported h2 hi
  obtain ⟨a, a', -, h4, h5⟩ := (float_core hso hu (ho.at n) hε hδ hb hd h1 (Keeps.refl b1) hrep hN hR ht).2
  exact ⟨a, a', h4, h5⟩

/-- **C108**, no recourse.  If the solver finishes and an entry says that there is no recourse, then no permitted action within the limits reaches the desired side of
the score with a margin of the rounding errors, at a row that is denied, with directions aligned to the classifier and room for rounding. -/
theorem C108_infeasible (hso : SetOrderOk ext) (hu : r.u < 1) (hlog : LogOk ext) (ho : o.Complete) (hb : AnyGrids ad.builder)
    (hy : ad.builder.aset.yDesired = 1 ∨ ad.builder.aset.yDesired = -1)
    (hd : FlDot r ad.builder.coefs x (dB x)) (h : ad.auditFl r ext o dA dB X y = (ad', .ok T))
    {k : ℕ} {l l' : ι} {row : AuditRow K} (hX : X[k]? = some (l, x)) (hT : T[k]? = some (l', row)) (hf : row.feasible = some false)
    {R : K} (hR : ChangesWithin R ad.builder.aset x)
    (hroom : RoomToRound ext r ad.builder x) (hla : LimitsApply ad.builder.aset x) (hz : KnowsZero r ad.builder.aset x) (hmin : ad.builder.minItems ≤ 1)
    (hden : Denied ad.builder x)
    (hal : ∀ (j : ℕ) (e : Elem K) (w : K), ad.builder.aset.elems[j]? = some e → ad.builder.coefs[j]? = some w → w ≠ 0 →
      AgreesWith ad.builder.aset.yDesired w e) :
    ¬ ∃ a, ClearRecourse (scoreError r ad.builder x + coefSize ad.builder.coefs * (r.u * R)) ad.builder.aset ad.builder.coefs ad.builder.intercept x a
      ad.builder.maxItems := by
  rintro ⟨a, ha⟩
  obtain ⟨n, b1, b', i, h1, h2, rfl⟩ := auditFl_entry hb h hX hT (by rw [hf]; simp)
  have := C105_found hso hu hlog (ho.at n) hb hy hd h1 .refl h2 hR hroom hla hz hmin hden hal ha
  rw [this] at hf
  cases hf

theorem auditLoopFl_runs (hlen : b0.aset.elems.length = b0.aset.names.length) {sel : List (ℕ × List K)} (hs : SameSetup ext b0 b)
    (hok : ∀ p ∈ sel, (b0.setXFl r ext (dB p.2) p.2).2 = .ok ()) :
    ∃ b' out, auditLoopFl r ext o dB b sel = (b', .ok out) := by
  induction sel generalizing b with
  | nil => exact ⟨b, [], rfl⟩
  | cons p sel ih =>
    obtain ⟨j, x⟩ := p
    have hx0 := hok (j, x) (by simp)
    dsimp only at hx0
    have hs1 := hs.trans (SameSetup.setXFl (r := r) (hs.lengths hlen) (dB x) x)
    unfold auditLoopFl
    obtain ⟨c1, hc⟩ : ∃ c1, b0.setXFl r ext (dB x) x = (c1, .ok ()) := ⟨_, Prod.ext rfl hx0⟩
    obtain ⟨feats, m, hxl, hbi, hm, -⟩ := setXFl_ok hc
    have hsc : b.scoreFl r (dB x) = b0.scoreFl r (dB x) := by unfold Builder.scoreFl; rw [hs.intercept]
    rcases setXFl_cases r ext b (dB x) x with ⟨h1, -⟩ | ⟨-, er, h1, -⟩ | ⟨-, f, er, h1, h2, -⟩ | ⟨-, f, m', h1, h2, h3⟩
    · exact absurd (by rw [hxl, hs.coefs]) h1
    · rw [hs.buildInfoFl, hbi] at h1; cases h1
    · rw [hs.buildInfoFl, hbi] at h1; cases h1
      rw [hs.buildArgs, hs.backend, hsc, hm] at h2; cases h2
    · rw [h3] at hs1 ⊢
      dsimp only at hs1 ⊢
      unfold Builder.fit
      dsimp only
      obtain ⟨b', out, h4⟩ := ih (hs1.trans (SameFixed.solve o _).setup) fun p hp => hok p (List.mem_cons_of_mem _ hp)
      rw [h4]
      exact ⟨_, _, rfl⟩

/-- **C108**, success.  An audit computed with rounding succeeds if its rows have the right length, some row is selected, and every selected row can be assigned to
the builder. -/
theorem C108_succeeds (hb : AnyGrids ad.builder) (hl : ∀ p ∈ X, p.2.length = ad.coefs.length) (hy : y = 1 ∨ y = -1 ∨ y = 0)
    (hsome : ∃ p ∈ X, ad.selectedFl y (dA p.2) = true)
    (hok : ∀ p ∈ X, ad.selectedFl y (dA p.2) = true → (ad.builder.setXFl r ext (dB p.2) p.2).2 = .ok ()) :
    ∃ ad' T, ad.auditFl r ext o dA dB X y = (ad', .ok T) := by
  obtain ⟨p0, hp0, hs0⟩ := hsome
  have h0 : ¬ X.isEmpty = true := by rw [List.isEmpty_iff]; rintro rfl; simp at hp0
  have h1 : ¬ (X.any fun r => decide (r.2.length ≠ ad.coefs.length)) = true := by
    rw [List.any_eq_true]
    rintro ⟨p, hp, h⟩
    exact (of_decide_eq_true h) (hl p hp)
  obtain ⟨b', out, hloop⟩ := auditLoopFl_runs (r := r) (ext := ext) (o := o) (dB := dB) (b := ad.builder)
    (sel := selRows (uniqueRows (X.map (·.2))) (fun v => ad.selectedFl y (dA v))) hb.columns.length (SameSetup.refl ext _) (by
      intro q hq
      obtain ⟨e1, e2⟩ := mem_selRows.mp hq
      obtain ⟨p, hp, he⟩ := List.mem_map.mp (mem_uniqueRows.mp (List.mem_of_getElem? e1))
      rw [← he] at e2 ⊢
      exact hok p hp e2)
  have hne : ¬ out.isEmpty = true := by
    obtain ⟨-, g2, -⟩ := auditLoopFl_spec hb.columns.length (SameSetup.refl ext _) hloop
    rw [List.isEmpty_iff]
    rintro rfl
    have hpU : p0.2 ∈ uniqueRows (X.map (·.2)) := mem_uniqueRows.mpr (List.mem_map_of_mem hp0)
    obtain ⟨k, hk⟩ := List.mem_iff_getElem?.mp hpU
    have : (k, p0.2) ∈ selRows (uniqueRows (X.map (·.2))) (fun v => ad.selectedFl y (dA v)) := mem_selRows.mpr ⟨hk, hs0⟩
    have := List.mem_map_of_mem (f := (·.1)) this
    rw [← g2] at this
    cases this
  unfold Auditor.auditFl
  rw [if_neg h0, if_neg h1, if_neg (not_not.mpr hy)]
  dsimp only
  unfold selRows at hloop
  rw [hloop]
  dsimp only
  rw [if_neg hne]
  exact ⟨_, _, rfl⟩

end Recourse
