import Verif.Model.Construct
import Verif.Props.Sets
import Verif.Props.Optimal
import Verif.Lemmas.Offers
import Verif.Lemmas.Compare

/-!
# Constructors (C74) and unknown cost types (C75)
-/

set_option linter.unusedSectionVars false

namespace Recourse

variable {K : Type} [Field K] [LinearOrder K] [IsStrictOrderedRing K] [FloorRing K]
  {ext : Ext K} {o : Oracle K} {b0 b1 b b' : Builder K} {x : List K} {i : Info K}
  {s : Installed} {solver ct : Option String} {kw : ClfKwargs K} {A A' : ActionSet K} {a : AnyBuilder K}

/-- The solvers one can pick: by name, if installed; without a name CPLEX, else Python-MIP. -/
theorem pick_ok {be : Backend} (h : s.pick solver = .ok be) :
    (be = .cpx → s.cplex = true) ∧ (be = .pymip → s.pymip = true) ∧
    (∀ n, solver = some n → n = be.solverName) ∧ (solver = none → s.cplex = true → be = .cpx) := by
  obtain ⟨c, p⟩ := s
  unfold Installed.pick Installed.supported Installed.default at h
  cases solver with
  | none =>
    cases c <;> cases p <;> cases be <;> simp [List.lookup] at h ⊢
  | some n =>
    dsimp only [Option.getD] at h
    by_cases h1 : n = "cplex"
    · subst h1
      cases c <;> cases p <;> cases be <;> simp [List.lookup, Backend.solverName] at h ⊢
    · by_cases h2 : n = "python-mip"
      · subst h2
        cases c <;> cases p <;> cases be <;> simp [List.lookup, Backend.solverName] at h ⊢
      · have e1 : (n == "cplex") = false := by simpa using h1
        have e2 : (n == "python-mip") = false := by simpa using h2
        cases c <;> cases p <;> simp [List.lookup, e1, e2] at h

theorem construct_none_ok (h : construct ext s solver ct kw A none = (A', .ok a)) :
    ∃ be w t, s.pick solver = .ok be ∧ parseClassifierArgs [] kw = .ok (w, t) ∧
      mkBuilder be ((costTypeOf ct).getD .total) A w t = .ok a.b ∧ a.valid = (costTypeOf ct).isSome ∧
      A' = a.b.aset := by
  unfold construct at h
  cases h1 : s.pick solver with
  | error e => rw [h1] at h; cases h
  | ok be =>
    rw [h1] at h
    dsimp only at h
    cases h2 : parseClassifierArgs [] kw with
    | error e => rw [h2] at h; cases h
    | ok wt =>
      obtain ⟨w, t⟩ := wt
      rw [h2] at h
      dsimp only at h
      cases h3 : mkBuilder be ((costTypeOf ct).getD .total) A w t with
      | error e => rw [h3] at h; cases h
      | ok b =>
        rw [h3] at h
        dsimp only at h
        cases h
        exact ⟨be, w, t, rfl, rfl, h3, rfl, rfl⟩

/-- **C74**, what a constructor returns: the solver asked for, which is installed (by default CPLEX if it is
installed); the classifier passed, with one coefficient per feature; the cost type asked for (default `max`);
limits 0 and the number of actionable features; no point; and the action set itself, aligned - unchanged if it
was aligned before. -/
theorem C74_construct (hA : A.Reachable ext) (h : construct ext s solver ct kw A none = (A', .ok a)) :
    (a.b.backend = .cpx → s.cplex = true) ∧ (a.b.backend = .pymip → s.pymip = true) ∧
    (∀ n, solver = some n → n = a.b.backend.solverName) ∧
    (solver = none → s.cplex = true → a.b.backend = .cpx) ∧
    parseClassifierArgs [] kw = .ok (a.b.coefs, a.b.intercept) ∧ a.b.coefs.length = A.names.length ∧
    (a.valid = true → costTypeOf ct = some a.b.costType) ∧ (a.valid = false → costTypeOf ct = none) ∧
    a.b.minItems = 0 ∧ a.b.maxItems = numActionable A ∧ a.b.x = none ∧ a.b.mip = none ∧
    a.b.aset = A' ∧ A'.alignmentKnown = true ∧
    (A.alignmentKnown = true → A' = A) ∧
    (A.alignmentKnown = false → A.setAlignment a.b.coefs = .ok A') ∧ a.b.Reachable ext := by
  obtain ⟨be, w, t, h1, h2, h3, h4, rfl⟩ := construct_none_ok h
  have hr : a.b.Reachable ext := .mk hA h3
  obtain ⟨p1, p2, p3, p4, p5, p6, p7⟩ := mkBuilder_parts h3
  have hfix : a.b.backend = be ∧ a.b.x = none ∧ a.b.mip = none ∧ A.names.length = w.length := by
    unfold mkBuilder at h3
    obtain ⟨_, q, h3⟩ := bind_ok_iff.mp h3
    rw [pyAssert_ok_iff, decide_eq_true_eq] at q
    dsimp only at h3
    by_cases hk : A.alignmentKnown = true
    · rw [if_pos hk] at h3
      have := Except.ok.inj h3
      rw [← this]; exact ⟨rfl, rfl, rfl, q⟩
    · rw [if_neg hk] at h3
      obtain ⟨A', -, h3⟩ := bind_ok_iff.mp h3
      have := Except.ok.inj h3
      rw [← this]; exact ⟨rfl, rfl, rfl, q⟩
  obtain ⟨f1, f2, f3, f4⟩ := hfix
  obtain ⟨g1, g2, g3, g4⟩ := pick_ok h1
  rw [f1]
  have hwl : w.length = A.names.length := f4.symm
  obtain ⟨A1, k1, k2, k3, k4, -⟩ := (C12_alignment hA w).1 hwl
  have hset : (A.alignmentKnown = true → a.b.aset = A) ∧ (A.alignmentKnown = false → A.setAlignment w = .ok a.b.aset) := by
    constructor
    · intro hk; rw [if_pos hk] at p1; exact (Except.ok.inj p1).symm
    · intro hk; rw [if_neg (by rw [hk]; decide)] at p1; exact p1
  refine ⟨g1, g2, g3, g4, by rw [p2, p3]; exact h2, by rw [p2]; exact hwl, ?_, ?_, p6, ?_, f2, f3, rfl, ?_,
    hset.1, by rw [p2]; exact hset.2, hr⟩
  · intro hv
    rw [h4] at hv
    obtain ⟨c, hc⟩ := Option.isSome_iff_exists.mp hv
    rw [hc] at p4 ⊢
    rw [p4]; rfl
  · intro hv
    rw [h4] at hv
    exact Option.isNone_iff_eq_none.mp (by simpa using hv)
  · exact (mkBuilder_offers hA h3).2.2.2.2.2.2
  · by_cases hk : A.alignmentKnown = true
    · rw [hset.1 hk]; exact hk
    · have := hset.2 (by simpa using hk)
      rw [k1] at this
      rw [← Except.ok.inj this]; exact k2

/-- **C74**, with a point: the constructor does what the constructor without the point does, then assigns the
point; if that is refused, so is the construction. -/
theorem C74_point (x : List K) : construct ext s solver ct kw A (some x) =
    match construct ext s solver ct kw A none with
    | (A', .error er) => (A', .error er)
    | (_, .ok a) => ((a.setX ext x).1.b.aset, (a.setX ext x).2.map fun _ => (a.setX ext x).1) := by
  unfold construct
  cases s.pick solver with
  | error e => rfl
  | ok be =>
    dsimp only
    cases parseClassifierArgs [] kw with
    | error e => rfl
    | ok wt =>
      dsimp only
      cases mkBuilder be ((costTypeOf ct).getD .total) A wt.1 wt.2 with
      | error e => rfl
      | ok b =>
        dsimp only
        generalize AnyBuilder.setX ext _ x = r
        obtain ⟨a, r⟩ := r
        cases r <;> rfl

/-- **C74**, what is refused: a solver that is not installed (or unknown), and a classifier with another number
of coefficients than there are features; in both cases the action set stays as it was. -/
theorem C74_refused (x : Option (List K)) :
    (∀ n, solver = some n → (∀ be : Backend, n = be.solverName → (be = .cpx → s.cplex = false) ∧
        (be = .pymip → s.pymip = false)) →
      construct ext s solver ct kw A x = (A, .error .value)) ∧
    (∀ be w t, s.pick solver = .ok be → parseClassifierArgs [] kw = .ok (w, t) → w.length ≠ A.names.length →
      construct ext s solver ct kw A x = (A, .error .assertion)) := by
  constructor
  · intro n hn hno
    have hp : s.pick solver = .error .value := by
      cases hp : s.pick solver with
      | ok be =>
        obtain ⟨g1, g2, g3, -⟩ := pick_ok hp
        have h := hno be (g3 n hn)
        cases be with
        | cpx => have := h.1 rfl; rw [g1 rfl] at this; cases this
        | pymip => have := h.2 rfl; rw [g2 rfl] at this; cases this
      | error e =>
        unfold Installed.pick at hp
        cases hl : s.supported.lookup (solver.getD s.default) with
        | none => rw [hl] at hp; exact hp.symm
        | some be => rw [hl] at hp; cases hp
    unfold construct
    rw [hp]
  · intro be w t h1 h2 h3
    have h4 : mkBuilder be ((costTypeOf ct).getD .total) A w t = .error .assertion := by
      unfold mkBuilder
      rw [show decide (A.names.length = w.length) = false from decide_eq_false (Ne.symm h3), pyAssert_false]
      rfl
    unfold construct
    rw [h1]
    dsimp only
    rw [h2]
    dsimp only
    rw [h4]

/-- **C74**, the cost type: without a name it is `max`; the names `total`, `local` and `max` mean what they say; any other
name is stored as it is (C75). -/
theorem C74_cost_type (h : construct ext s solver ct kw A none = (A', .ok a)) :
    (a.valid = true ↔ ct = none ∨ ct = some "total" ∨ ct = some "local" ∨ ct = some "max") ∧
    (ct = none ∨ ct = some "max" → a.b.costType = .max) ∧ (ct = some "total" → a.b.costType = .total) ∧
    (ct = some "local" → a.b.costType = .loc) := by
  obtain ⟨be, w, t, -, -, h3, h4, -⟩ := construct_none_ok h
  have hc := (mkBuilder_parts h3).2.2.2.1
  refine ⟨?_, ?_, ?_, ?_⟩
  · rw [h4]
    cases ct with
    | none => simp [costTypeOf]
    | some n =>
      unfold costTypeOf
      by_cases h1 : n = "total"
      · simp [h1]
      · by_cases h2 : n = "local"
        · simp [h2]
        · by_cases h3 : n = "max"
          · simp [h3]
          · simp [h1, h2, h3]
  · rintro (rfl | rfl) <;> rw [hc] <;> decide
  · rintro rfl; rw [hc]; decide
  · rintro rfl; rw [hc]; decide

/-- **C74**, auditors: the constructor succeeds exactly if the solver can be picked, the classifier is legal and has one coefficient
per feature.  The auditor has that classifier, the cost type `max`, no point, and the set aligned with the classifier, whether or not it
was aligned before. -/
theorem C74_auditor (hA : A.Reachable ext) {ad : Auditor K} :
    (constructAuditor s solver kw A = (A', .ok ad) ↔
      ∃ be, s.pick solver = .ok be ∧ parseClassifierArgs [] kw = .ok (ad.coefs, ad.intercept) ∧
        mkAuditor be A ad.coefs ad.intercept = .ok ad ∧ A.setAlignment ad.coefs = .ok A') ∧
    (constructAuditor s solver kw A = (A', .ok ad) → ad.Reachable ext ∧ ad.builder.costType = .max ∧
      ad.builder.coefs = ad.coefs ∧ ad.builder.intercept = ad.intercept ∧ ad.builder.aset = A' ∧
      ad.coefs.length = A.names.length ∧ ad.builder.x = none) := by
  have key : constructAuditor s solver kw A = (A', .ok ad) ↔
      ∃ be, s.pick solver = .ok be ∧ parseClassifierArgs [] kw = .ok (ad.coefs, ad.intercept) ∧
        mkAuditor be A ad.coefs ad.intercept = .ok ad ∧ A.setAlignment ad.coefs = .ok A' := by
    unfold constructAuditor
    constructor
    · intro h
      cases h1 : parseClassifierArgs [] kw with
      | error e => rw [h1] at h; cases h
      | ok wt =>
        obtain ⟨w, t⟩ := wt
        rw [h1] at h
        dsimp only at h
        cases h2 : A.setAlignment w with
        | error e => rw [h2] at h; cases h
        | ok A1 =>
          rw [h2] at h
          dsimp only at h
          cases h3 : s.pick solver with
          | error e => rw [h3] at h; cases h
          | ok be =>
            rw [h3] at h
            dsimp only at h
            cases h4 : mkBuilder be .max A1 w t with
            | error e => rw [h4] at h; cases h
            | ok b =>
              rw [h4] at h
              dsimp only at h
              obtain ⟨rfl, h5⟩ := Prod.mk.inj h
              obtain rfl := Except.ok.inj h5
              refine ⟨be, rfl, rfl, ?_, h2⟩
              unfold mkAuditor
              rw [h2, ok_bind, h4]; rfl
    · rintro ⟨be, h1, h2, h3, h4⟩
      unfold mkAuditor at h3
      rw [h4, ok_bind] at h3
      obtain ⟨b, h5, h6⟩ := bind_ok_iff.mp h3
      rw [h2]
      dsimp only
      rw [h4]
      dsimp only
      rw [h1]
      dsimp only
      rw [h5]
      dsimp only
      rw [Except.ok.inj h6]
  refine ⟨key, fun h => ?_⟩
  obtain ⟨be, h1, h2, h3, h4⟩ := key.mp h
  refine ⟨.mk hA h3, ?_⟩
  unfold mkAuditor at h3
  rw [h4, ok_bind] at h3
  obtain ⟨b, h5, h6⟩ := bind_ok_iff.mp h3
  obtain ⟨p1, p2, p3, p4, -⟩ := mkBuilder_parts h5
  obtain ⟨A2, k1, k2, -⟩ := (C12_alignment hA ad.coefs).1 (setAlignment_ok h4).1
  rw [h4] at k1
  rw [← Except.ok.inj k1] at k2
  rw [if_pos k2] at p1
  have hb : ad.builder = b := by
    have := congrArg Auditor.builder (Except.ok.inj h6)
    exact this.symm
  rw [hb]
  refine ⟨p4, p2, p3, (Except.ok.inj p1).symm, (setAlignment_ok h4).1, ?_⟩
  unfold mkBuilder at h5
  obtain ⟨_, -, h5⟩ := bind_ok_iff.mp h5
  dsimp only at h5
  rw [if_pos k2] at h5
  rw [← Except.ok.inj h5]

/-- A failing constructor is not without effect on the action set: a builder that refuses its point has
aligned the set before, and an auditor that refuses its solver has re-aligned it (here from direction 1 to
direction -1). -/
theorem C74_failing_refuted : ∃ A A1 A2 : ActionSet ℚ, A.Reachable exExt ∧ A.elems.map (·.flip) = [none] ∧
    construct exExt ⟨true, true⟩ none none { coefficients := some [1] } A (some [0, 0]) = (A1, .error .assertion) ∧
    A1.elems.map (·.flip) = [some 1] ∧
    constructAuditor ⟨true, true⟩ (some "gurobi") { coefficients := some [(-1 : ℚ)] } A1 = (A2, .error .value) ∧
    A2.elems.map (·.flip) = [some (-1)] := by
  have key : ∃ A : ActionSet ℚ, mkActionSet [[0], [1]] ["a"] 1 [] defaultBounds (.str "relative") = .ok A ∧
      A.elems.map (·.flip) = [none] ∧
      (construct exExt ⟨true, true⟩ none none { coefficients := some [1] } A (some [0, 0])).2.map (fun _ => ())
        = .error .assertion ∧
      (construct exExt ⟨true, true⟩ none none { coefficients := some [1] } A (some [0, 0])).1.elems.map (·.flip)
        = [some 1] ∧
      (constructAuditor ⟨true, true⟩ (some "gurobi") { coefficients := some [(-1 : ℚ)] }
        (construct exExt ⟨true, true⟩ none none { coefficients := some [1] } A (some [0, 0])).1).2.map (fun _ => ())
        = .error .value ∧
      (constructAuditor ⟨true, true⟩ (some "gurobi") { coefficients := some [(-1 : ℚ)] }
        (construct exExt ⟨true, true⟩ none none { coefficients := some [1] } A (some [0, 0])).1).1.elems.map (·.flip)
        = [some (-1)] := by decide +kernel
  have err : ∀ {α : Type} {r : Except Err α} {e : Err}, r.map (fun _ => ()) = .error e → r = .error e := by
    intro α r e h
    cases r with
    | ok v => cases h
    | error e' => simpa [Except.map] using h
  obtain ⟨A, h1, h2, h3, h4, h5, h6⟩ := key
  exact ⟨A, _, _, .mk h1, h2, Prod.ext rfl (err h3), h4, Prod.ext rfl (err h5), h6⟩

/-- Non-vacuity of `C74_construct`. -/
theorem C74_example : ∃ (A A' : ActionSet ℚ) (a : AnyBuilder ℚ), A.Reachable exExt ∧
    construct exExt ⟨false, true⟩ none (some "local") { coefficients := some [1, -2], intercept := some [3] } A none
      = (A', .ok a) ∧ a.b.backend = .pymip ∧ a.b.costType = .loc ∧ a.b.maxItems = 2 := by
  have key : ∃ A : ActionSet ℚ, mkActionSet [[0, 1], [1, 0]] ["a", "b"] 1 [] defaultBounds (.str "relative") = .ok A ∧
      (construct exExt ⟨false, true⟩ none (some "local") { coefficients := some [1, -2], intercept := some [3] } A none).2.map
        (fun a => (a.b.backend, a.b.costType, a.b.maxItems)) = .ok (.pymip, .loc, 2) := by decide +kernel
  obtain ⟨A, h1, h2⟩ := key
  cases h : (construct exExt ⟨false, true⟩ none (some "local")
      { coefficients := some [1, -2], intercept := some [3] } A none).2 with
  | error e => rw [h] at h2; cases h2
  | ok a =>
    rw [h] at h2
    have := Except.ok.inj h2
    simp only [Prod.mk.injEq] at this
    exact ⟨A, _, a, .mk h1, Prod.ext rfl h, this⟩

/-! ## Unknown cost types -/

theorem limitConsOf_eq (be : Backend) (feats : List (Feat K)) : limitConsOf be feats = limitCons be feats := by
  cases be <;> rfl

theorem pickConsOf_eq (be : Backend) : (pickConsOf be : Feat K → List (LinCon K)) = pickCons be := by
  cases be <;> rfl

/-- For an unknown cost type the program is that of `total` without the objective. -/
theorem buildUnpriced_of {be : Backend} {p : BuildArgs K} {m : Mip K} (hct : p.costType = .total)
    (h : buildMip be p = .ok m) : buildUnpriced be p = .ok { m with obj := [] } := by
  obtain ⟨lims, h1, -, rfl⟩ := buildMip_ok h
  unfold buildUnpriced
  rw [limitConsOf_eq, h1, pickConsOf_eq]
  simp only [ok_bind, hct]
  rw [if_neg (by decide), List.append_nil]
  simp [costDecls]

theorem setXUnpriced_of (hct : b0.costType = .total) (h : b0.setX ext x = (b1, .ok ())) :
    ∃ m, b1.mip = some m ∧ b0.setXUnpriced ext x = ({ b1 with mip := some { m with obj := [] } }, .ok ()) := by
  obtain ⟨feats, m, h1, h2, h3, rfl⟩ := setX_ok h
  refine ⟨m, rfl, ?_⟩
  unfold Builder.setXUnpriced
  rw [if_neg (by simpa using h1)]
  dsimp only
  rw [show ({ b0 with x := some x } : Builder K).buildInfo ext x = b0.buildInfo ext x from rfl, h2]
  dsimp only
  rw [show ({ b0 with x := some x, aset := b0.aset.touch ext true } : Builder K).buildArgs x feats
    = b0.buildArgs x feats from rfl, buildUnpriced_of hct h3]

/-- **C75** (partial).  A cost type that is none of the three names is accepted by the constructor and by the
assignment of a point (whenever `total` is).  No wrong answer results: at a denied point in regular situations,
with an exact solver, `fit` raises when there is recourse, and reports that there is none when there is none.
Missing from the full property: that the name is refused when it is passed, which is false
(`C75_unknown_refuted`). -/
theorem C75_unknown_partial (hso : SetOrderOk ext) (hlog : LogOk ext) (ho : o.Exact) (hr : b0.Reachable ext)
    (hct : b0.costType = .total) (hreg : Regular ext b0 x) (hden : Denied b0 x)
    (hx : b0.setX ext x = (b1, .ok ())) :
    ∃ a, (AnyBuilder.mk b0 false).setX ext x = (a, .ok ()) ∧
      ((∃ v, IsLimitedRecourse b0.aset b0.coefs b0.intercept x v 1 b0.maxItems) →
        a.fit o = .error .attribute) ∧
      ((¬ ∃ v, IsLimitedRecourse b0.aset b0.coefs b0.intercept x v 1 b0.maxItems) →
        ∃ a' i, a.fit o = .ok (a', i) ∧ i.feasible = false) := by
  obtain ⟨m, hm, hu⟩ := setXUnpriced_of hct hx
  obtain ⟨feats, h1, h2, h3⟩ := Posed.setX hso hr.ok hx
  set b2 : Builder K := { b1 with mip := some { m with obj := [] } } with hb2
  refine ⟨⟨b2, false⟩, ?_, ?_⟩
  · unfold AnyBuilder.setX
    rw [if_neg (by simp)]
    dsimp only
    rw [hu]
  have hfeas : ∀ σ, ({ m with obj := [] } : Mip K).Feasible σ ↔ m.Feasible σ := fun σ =>
    ⟨fun h => ⟨h.1, h.2, h.3⟩, fun h => ⟨h.1, h.2, h.3⟩⟩
  have hobj : ∀ σ, ({ m with obj := [] } : Mip K).objVal σ = 0 := fun σ => rfl
  have hbm : b2.mip = some { m with obj := [] } := rfl
  have hsol : (b2.solve o).sol = o b2.clock { m with obj := [] } := by unfold Builder.solve; rw [hbm]
  have hfit : (AnyBuilder.mk b2 false).fit o = (b2.fitUnpriced o).bind fun r => .ok (⟨r.1, false⟩, r.2) := rfl
  have hfitv : b2.fitUnpriced o = match (b2.solve o).reported with
      | none => .ok (b2.solve o, emptyInfo)
      | some _ => .error .attribute := rfl
  -- recourse exists iff the program is feasible
  have hmf : b1.fit o = .ok (b1.solve o, (b1.solve o).solutionInfo) := by unfold Builder.fit; rw [hm]
  obtain ⟨hiff, -⟩ := C25_no_recourse hso hlog ho hr hreg hden hx .refl hmf
  have hp := ho.1 b2.clock { m with obj := [] }
  have hcomp := ho.2 b2.clock { m with obj := [] }
  have hsolm : (b1.solve o).sol = o b1.clock m := by unfold Builder.solve; rw [hm]
  constructor
  · intro hrec
    have hf : (b1.solve o).solutionInfo.feasible = true := by
      cases hc : (b1.solve o).solutionInfo.feasible with
      | true => rfl
      | false => exact absurd hrec (hiff.mp hc)
    obtain ⟨σ, hσ⟩ : ∃ σ, m.Feasible σ := by
      by_contra hno
      have := (ho.2 b1.clock m).2 hno
      rw [this] at hsolm
      have hrn : (b1.solve o).reported = none := by
        unfold Builder.reported; rw [hsolm]
      unfold Builder.solutionInfo at hf
      rw [hrn] at hf
      exact Bool.false_ne_true hf
    obtain ⟨τ, hτ⟩ := hcomp.1 ⟨σ, (hfeas σ).mpr hσ, fun τ _ => by rw [hobj, hobj]⟩
    rw [hτ] at hsol
    have hrs : (b2.solve o).reported = some τ := by
      unfold Builder.reported; rw [hsol]
    rw [hfit, hfitv, hrs]
    rfl
  · intro hnrec
    have hf := hiff.mpr hnrec
    have hnf : ¬ ∃ σ, ({ m with obj := [] } : Mip K).Feasible σ := by
      rintro ⟨σ, hσ⟩
      obtain ⟨m', hm', hc, -⟩ := h3.mip
      rw [hm] at hm'; obtain rfl := Option.some.inj hm'
      obtain ⟨κ, -, hk, -⟩ := (hc.feas σ).mp ((hfeas σ).mp hσ)
      rcases h3.solved h2 ho.1 with ⟨-, -, hn⟩ | ⟨σ, κ, -, -, -, -, hrep, -⟩
      · exact hn ho.2 ⟨κ, hk, trivial⟩
      · rw [hrep.feasible] at hf; cases hf
    rw [hcomp.2 hnf] at hsol
    have hrn : (b2.solve o).reported = none := by
      unfold Builder.reported; rw [hsol]
    rw [hfit, hfitv, hrn]
    exact ⟨_, _, rfl, rfl⟩

/-- The full C75 is false: a misspelt cost type is accepted together with a point, and then `fit` raises for a
person who has recourse, with every exact solver. -/
theorem C75_unknown_refuted (s : Installed) (hs : s = ⟨true, true⟩ ∨ s = ⟨false, true⟩) : ∃ (A A' : ActionSet ℚ)
    (a : AnyBuilder ℚ), A.Reachable exExt ∧
    construct exExt s none (some "totl") { coefficients := some [1], intercept := some [-1] } A (some [0]) = (A', .ok a) ∧
    ∀ o : Oracle ℚ, o.Exact → a.fit o = .error .attribute := by
  have key : ∀ s ∈ [Installed.mk true true, ⟨false, true⟩], ∃ A : ActionSet ℚ,
      mkActionSet [[0], [1]] ["a"] 1 [] defaultBounds (.str "relative") = .ok A ∧
      ∃ b0 : Builder ℚ, mkBuilder (if s.cplex then .cpx else .pymip) .total A [1] (-1) = .ok b0 ∧
      b0.costType = .total ∧
      regularB exExt b0 [0] = true ∧ Denied b0 [0] ∧ (b0.setX exExt [0]).2 = .ok () ∧
      admitted (b0.buildArgs [0] (b0.setX exExt [0]).1.feats) (fun _ => true) ≠ [] := by decide +kernel
  obtain ⟨A, h1, b0, h2, h3, h4, h5, h6, h7⟩ := key s (by simpa using hs)
  have hr : b0.Reachable exExt := .mk (.mk h1) h2
  have hreg := regular_of_b hr.ok exExt_pos h4
  obtain ⟨b1, hx⟩ : ∃ b1, b0.setX exExt [0] = (b1, .ok ()) := ⟨_, Prod.ext rfl h6⟩
  have hrec : ∃ v, IsLimitedRecourse b0.aset b0.coefs b0.intercept [0] v 1 b0.maxItems := by
    obtain ⟨κ, hκ⟩ := List.exists_mem_of_ne_nil _ h7
    obtain ⟨feats, g1, -, g3⟩ := Posed.setX exExt_order hr.ok hx
    have hfe : (b0.setX exExt [0]).1.feats = feats := by rw [hx]; exact g3.feats
    rw [hfe] at hκ
    exact ⟨_, choice_limited exExt_order hr.ok g1 hreg (admitted_ok hκ).1⟩
  obtain ⟨m, hm, hu⟩ := setXUnpriced_of h3 hx
  refine ⟨A, b1.aset, ⟨{ b1 with mip := some { m with obj := [] } }, false⟩, .mk h1, ?_, fun o ho => ?_⟩
  · have hp : s.pick none = .ok (if s.cplex then .cpx else .pymip) := by
      rcases hs with rfl | rfl <;> rfl
    rw [C74_point]
    have hc : construct exExt s none (some "totl") { coefficients := some [1], intercept := some [-1] } A none
        = (b0.aset, .ok ⟨b0, false⟩) := by
      unfold construct
      rw [hp]
      dsimp only
      rw [show parseClassifierArgs [] { coefficients := some [(1 : ℚ)], intercept := some [-1] } = .ok ([1], -1) from rfl]
      dsimp only
      rw [show (costTypeOf (some "totl")).getD .total = .total by decide, h2]
      rfl
    rw [hc]
    dsimp only
    have : (AnyBuilder.mk b0 false).setX exExt [0]
        = (⟨{ b1 with mip := some { m with obj := [] } }, false⟩, .ok ()) := by
      unfold AnyBuilder.setX
      rw [if_neg (by simp)]
      dsimp only
      rw [hu]
    rw [this]
    rfl
  · obtain ⟨a, g1, g2, -⟩ := C75_unknown_partial exExt_order exExt_log ho hr h3 hreg h5 hx
    have : (AnyBuilder.mk b0 false).setX exExt [0]
        = (⟨{ b1 with mip := some { m with obj := [] } }, false⟩, .ok ()) := by
      unfold AnyBuilder.setX
      rw [if_neg (by simp)]
      dsimp only
      rw [hu]
    rw [this] at g1
    have := congrArg Prod.fst g1
    dsimp only at this
    rw [this]
    exact g2 hrec

end Recourse
