import Verif.Props.Fit

/-!
# Assigning `x` (C30, C33, C34, C36)
-/

set_option linter.unusedSectionVars false

namespace Recourse

variable {K : Type} [Field K] [LinearOrder K] [IsStrictOrderedRing K] [FloorRing K]

variable {ext : Ext K} {b0 b1 b b' : Builder K} {x : List K}

/-! ## C30 -/

theorem map_mapM_congr {ε α β γ : Type} {f : α → Except ε β} {g : α → Except ε γ}
    (h : ∀ a, (f a).map (fun _ => ()) = (g a).map (fun _ => ())) (l : List α) :
    (l.mapM f).map (fun _ => ()) = (l.mapM g).map (fun _ => ()) := by
  induction l with
  | nil => rfl
  | cons a t ih =>
    rw [List.mapM_cons, List.mapM_cons]
    have ha := h a
    cases hf : f a with
    | error e =>
      rw [hf] at ha
      cases hg : g a with
      | error e' => rw [hg] at ha; simpa [Except.map] using ha
      | ok c => rw [hg] at ha; simp [Except.map] at ha
    | ok c =>
      rw [hf] at ha
      cases hg : g a with
      | error e' => rw [hg] at ha; simp [Except.map] at ha
      | ok d =>
        simp only [ok_bind]
        cases hft : List.mapM f t with
        | error e =>
          rw [hft] at ih
          cases hgt : List.mapM g t with
          | error e' => rw [hgt] at ih; simpa [Except.map] using ih
          | ok c => rw [hgt] at ih; simp [Except.map] at ih
        | ok c =>
          rw [hft] at ih
          cases hgt : List.mapM g t with
          | error e' => rw [hgt] at ih; simp [Except.map] at ih
          | ok c => rfl

theorem buildMip_status (p : BuildArgs K) :
    (buildMip .cpx p).map (fun _ => ()) = (buildMip .pymip p).map (fun _ => ()) := by
  have hl : (p.limits.mapM (limitConsCpx p.feats)).map (fun _ => ())
      = (p.limits.mapM (limitConsPy p.feats)).map (fun _ => ()) := by
    apply map_mapM_congr
    intro c
    unfold limitConsCpx limitConsPy
    cases nullNames p.feats c.indices <;> rfl
  unfold buildMip buildCpx buildPy
  dsimp only
  cases h1 : p.limits.mapM (limitConsCpx p.feats) with
  | error e =>
    rw [h1] at hl
    cases h2 : p.limits.mapM (limitConsPy p.feats) with
    | error e' => rw [h2] at hl; simpa [Except.map] using hl
    | ok c => rw [h2] at hl; simp [Except.map] at hl
  | ok c =>
    rw [h1] at hl
    cases h2 : p.limits.mapM (limitConsPy p.feats) with
    | error e' => rw [h2] at hl; simp [Except.map] at hl
    | ok c =>
      simp only [ok_bind]
      by_cases hc : p.costType ≠ .max ∧ p.feats.isEmpty
      · rw [if_pos hc, if_pos hc]
      · rw [if_neg hc, if_neg hc]; rfl

/-- **C30.**  A CPLEX and a Python-MIP builder that agree otherwise accept the same points (and raise the
same exceptions); after a successful assignment their programs have the same feasible points and
the same objective; so exact solvers agree on feasibility and on the optimal objective value, and for
total and local costs on the reported cost. -/
theorem C30_backends (hso : SetOrderOk ext) (hr : b0.Reachable ext) {bc bp : Builder K}
    (hbc : bc = { b0 with backend := .cpx }) (hbp : bp = { b0 with backend := .pymip }) :
    (bc.setX ext x).2 = (bp.setX ext x).2 ∧
    ∀ bc1 bp1, bc.setX ext x = (bc1, .ok ()) → bp.setX ext x = (bp1, .ok ()) →
      (∃ mc mp, bc1.mip = some mc ∧ bp1.mip = some mp ∧ (∀ σ, mc.Feasible σ ↔ mp.Feasible σ) ∧
        ∀ σ, mc.objVal σ = mp.objVal σ) ∧
      ∀ oc op : Oracle K, oc.Exact → op.Exact → ∀ bc2 bp2 ic ip, bc1.fit oc = .ok (bc2, ic) →
        bp1.fit op = .ok (bp2, ip) →
        ic.feasible = ip.feasible ∧ ic.upperbound = ip.upperbound ∧
        (b0.costType ≠ .max → ic.cost = ip.cost) := by
  subst hbc hbp
  have hokc : BuilderOK ext { b0 with backend := .cpx } := ⟨hr.ok.1, hr.ok.2, hr.ok.3⟩
  have hokp : BuilderOK ext { b0 with backend := .pymip } := ⟨hr.ok.1, hr.ok.2, hr.ok.3⟩
  refine ⟨?_, ?_⟩
  · unfold Builder.setX
    by_cases hlen : x.length ≠ b0.coefs.length
    · rw [if_pos hlen, if_pos hlen]
    · rw [if_neg hlen, if_neg hlen]
      dsimp only
      have e1 : ({ b0 with backend := .cpx, x := some x } : Builder K).buildInfo ext x = b0.buildInfo ext x := rfl
      have e2 : ({ b0 with backend := .pymip, x := some x } : Builder K).buildInfo ext x = b0.buildInfo ext x := rfl
      rw [e1, e2]
      cases b0.buildInfo ext x with
      | error e => rfl
      | ok feats =>
        dsimp only
        have e3 : ({ b0 with backend := .cpx, x := some x, aset := b0.aset.touch ext true } : Builder K).buildArgs
            x feats = b0.buildArgs x feats := rfl
        have e4 : ({ b0 with backend := .pymip, x := some x, aset := b0.aset.touch ext true } : Builder K).buildArgs
            x feats = b0.buildArgs x feats := rfl
        rw [e3, e4]
        have hs := buildMip_status (b0.buildArgs x feats)
        cases h1 : buildMip .cpx (b0.buildArgs x feats) with
        | error e =>
          rw [h1] at hs
          cases h2 : buildMip .pymip (b0.buildArgs x feats) with
          | error e' => rw [h2] at hs; simpa [Except.map] using hs
          | ok m => rw [h2] at hs; simp [Except.map] at hs
        | ok m =>
          rw [h1] at hs
          cases h2 : buildMip .pymip (b0.buildArgs x feats) with
          | error e' => rw [h2] at hs; simp [Except.map] at hs
          | ok m => rfl
  · intro bc1 bp1 hc hp
    obtain ⟨fc, c1, c2, c3⟩ := Posed.setX hso hokc hc
    obtain ⟨fp, p1, p2, p3⟩ := Posed.setX hso hokp hp
    have hff : fc = fp := by
      have : (Except.ok fc : Except Err _) = .ok fp := c1.symm.trans p1
      cases this; rfl
    subst hff
    have hargs : ({ b0 with backend := .cpx } : Builder K).buildArgs x fc
        = ({ b0 with backend := .pymip } : Builder K).buildArgs x fc := rfl
    have p3 : Posed b0.coefs.length .pymip (b0.buildArgs x fc) (fun _ => True) bp1 := p3
    have c3 : Posed b0.coefs.length .cpx (b0.buildArgs x fc) (fun _ => True) bc1 := c3
    refine ⟨?_, ?_⟩
    · obtain ⟨mc, hmc, hcc, -⟩ := c3.mip
      obtain ⟨mp, hmp, hcp, -⟩ := p3.mip
      refine ⟨mc, mp, hmc, hmp, fun σ => (hcc.feas σ).trans (hcp.feas σ).symm, fun σ => ?_⟩
      unfold Mip.objVal
      rw [hcc.obj, hcp.obj]
    · intro oc op hoc hop bc2 bp2 ic ip hfc hfp
      obtain ⟨-, -, rfl⟩ := fit_ok hfc
      obtain ⟨-, -, rfl⟩ := fit_ok hfp
      rcases c3.solved c2 hoc.1 with ⟨-, hce, hcn⟩ | ⟨σ, κ, -, -, hck, -, hcr, hcb⟩
      · rcases p3.solved p2 hop.1 with ⟨-, hpe, -⟩ | ⟨σ, κ, -, -, hpk, -, -⟩
        · rw [hce, hpe]; exact ⟨rfl, rfl, fun _ => rfl⟩
        · exact absurd ⟨κ, hpk, trivial⟩ (hcn hoc.2)
      · rcases p3.solved p2 hop.1 with ⟨-, -, hpn⟩ | ⟨σ', κ', -, -, hpk, -, hpr, hpb⟩
        · exact absurd ⟨κ, hck, trivial⟩ (hpn hop.2)
        · have hcb := hcb hoc.2
          have hpb := hpb hop.2
          have hobj := le_antisymm (hcb.least κ' hpk trivial) (hpb.least κ hck trivial)
          refine ⟨by rw [hcr.feasible, hpr.feasible], by rw [hcb.bound, hpb.bound, hobj], fun hct => ?_⟩
          have hct' : (b0.buildArgs x fc).costType ≠ .max := hct
          have h1 := (hcr.sum hct').1
          have h2 := (hpr.sum hct').1
          rw [h1, h2]
          unfold choiceObj at hobj
          revert hobj hct'
          cases (b0.buildArgs x fc).costType with
          | max => intro _ h; exact absurd rfl h
          | total => intro h _; exact congrArg XV.fin h
          | loc => intro h _; exact congrArg XV.fin h

/-- Non-vacuity of C30: both back ends accept the point of `C22_example`. -/
example : (∃ b1 : Builder ℚ, exBuild .cpx .total [[0, 0], [1, 1]] ["a", "b"] .ok [1, 2] (-1) [0, 0] = .ok b1 ∧
    b1.feats.length = 2) ∧
    ∃ b1 : Builder ℚ, exBuild .pymip .total [[0, 0], [1, 1]] ["a", "b"] .ok [1, 2] (-1) [0, 0] = .ok b1 ∧
    b1.feats.length = 2 := by decide +kernel

/-! ## C33 -/

theorem fillCache_table (ext : Ext K) (e : Elem K) : (e.fillCache ext).table ext = e.table ext := by
  unfold Elem.fillCache
  cases h : e.table ext with
  | ok t => rfl
  | error er => exact h

theorem fillCache_idem (ext : Ext K) (e : Elem K) : (e.fillCache ext).fillCache ext = e.fillCache ext := by
  have gen : ∀ (e' : Elem K) t, e'.table ext = .ok t → e'.fillCache ext = { e' with cache := some t } := by
    intro e' t h; unfold Elem.fillCache; rw [h]
  have ht := fillCache_table ext e
  cases h : e.table ext with
  | ok t =>
    rw [h] at ht
    rw [gen _ _ ht, gen _ _ h]
  | error er =>
    have he : e.fillCache ext = e := by unfold Elem.fillCache; rw [h]
    rw [he, he]

theorem fillCache_fields (ext : Ext K) (e : Elem K) :
    (e.fillCache ext).compatTruthy = e.compatTruthy ∧ (∀ v d, (e.fillCache ext).feasX v d = e.feasX v d) ∧
    (e.fillCache ext).aligned = e.aligned ∧ (e.fillCache ext).name = e.name := by
  unfold Elem.fillCache
  cases e.table ext <;> exact ⟨rfl, fun _ _ => rfl, rfl, rfl⟩

theorem gridEntry_fillCache (ext : Ext K) (n : String) (e : Elem K) (v : K) (ra d : Bool) :
    gridEntry ext n (e.fillCache ext) v ra d = gridEntry ext n e v ra d := by
  obtain ⟨-, h2, h3, -⟩ := fillCache_fields ext e
  unfold gridEntry Elem.feasibleValues Elem.feasiblePercentiles
  rw [fillCache_table, h2, h3]

/-- The action set with all percentile tables cached. -/
def ActionSet.norm (ext : Ext K) (A : ActionSet K) : ActionSet K :=
  { A with elems := A.elems.map (Elem.fillCache ext) }

theorem elem?_norm (ext : Ext K) (A : ActionSet K) (n : String) :
    (A.norm ext).elem? n = (A.elem? n).map (Elem.fillCache ext) := by
  have e1 : (A.norm ext).elem? n
      = if n ∈ A.names then (A.elems.map (Elem.fillCache ext))[A.names.idxOf n]? else none := rfl
  rw [e1]
  unfold ActionSet.elem?
  by_cases h : n ∈ A.names
  · rw [if_pos h, if_pos h, List.getElem?_map]
  · rw [if_neg h, if_neg h]; rfl

theorem overrideLoop_norm (ext : Ext K) (A : ActionSet K) (x : List K) (ra : Bool) (ns : List String)
    (out : List (GridEntry K)) :
    (A.norm ext).overrideLoop ext x ra ns out = A.overrideLoop ext x ra ns out := by
  induction ns generalizing out with
  | nil => rfl
  | cons n ns ih =>
    unfold ActionSet.overrideLoop
    rw [elem?_norm]
    cases h : A.elem? n with
    | none => rfl
    | some e =>
      simp only [Option.map_some]
      have : (A.norm ext).names = A.names := rfl
      rw [this]
      cases h2 : x[A.names.idxOf n]? with
      | none => rfl
      | some xj =>
        dsimp only
        rw [gridEntry_fillCache]
        cases gridEntry ext n e xj ra false with
        | error er => rfl
        | ok g => simp only [ok_bind]; exact ih _

theorem feasibleGrid_norm (ext : Ext K) (A : ActionSet K) (x : List K) (ra rc : Bool) :
    (A.norm ext).feasibleGrid ext x ra rc = A.feasibleGrid ext x ra rc := by
  have hcols : (A.norm ext).cols x = (A.cols x).map fun p => (p.1, p.2.1.fillCache ext, p.2.2) := by
    unfold ActionSet.cols ActionSet.norm
    rw [List.zip_map_left, List.zip_map_right]
    rfl
  have hf : ((A.norm ext).cols x).filter (fun p => !rc || p.2.1.compatTruthy)
      = ((A.cols x).filter (fun p => !rc || p.2.1.compatTruthy)).map fun p => (p.1, p.2.1.fillCache ext, p.2.2) := by
    rw [hcols, List.filter_map]
    congr 1
    apply List.filter_congr
    intro p _
    simp only [Function.comp, (fillCache_fields ext p.2.1).1]
  unfold ActionSet.feasibleGrid
  dsimp only
  rw [hf, List.mapM_map]
  have hm : ((fun p : String × Elem K × K => gridEntry ext p.1 p.2.1 p.2.2 ra true) ∘
      fun p : String × Elem K × K => (p.1, p.2.1.fillCache ext, p.2.2))
      = fun p => gridEntry ext p.1 p.2.1 p.2.2 ra true := by
    funext p; simp only [Function.comp, gridEntry_fillCache]
  rw [hm]
  have h1 : (A.norm ext).names = A.names := rfl
  have h2 : (A.norm ext).cons = A.cons := rfl
  rw [h1, h2]
  congr 1
  funext _
  congr 1
  funext out
  rw [overrideLoop_norm]

theorem norm_touch {ext : Ext K} {A : ActionSet K} (h : A.elems.length = A.names.length) (rc : Bool) :
    (A.touch ext rc).norm ext = A.norm ext := by
  unfold ActionSet.norm ActionSet.touch
  simp only [ActionSet.mk.injEq, List.map_map, and_true, true_and]
  have : (Elem.fillCache ext ∘ fun p : String × Elem K =>
      if (!rc || p.2.compatTruthy) || decide (p.1 ∈ A.cons.flatNames) then p.2.fillCache ext else p.2)
      = (Elem.fillCache ext) ∘ Prod.snd := by
    funext p
    simp only [Function.comp]
    split_ifs
    · rw [fillCache_idem]
    · rfl
  rw [this, ← List.map_map, List.map_snd_zip (by rw [h])]

theorem norm_visit (ext : Ext K) (js : List ℕ) (A : ActionSet K) : (A.visit ext js).norm ext = A.norm ext := by
  induction js generalizing A with
  | nil => rfl
  | cons j js ih =>
    unfold ActionSet.visit
    cases he : A.elems[j]? with
    | none => rfl
    | some e =>
      dsimp only
      split_ifs with hc
      · rw [ih]
        unfold ActionSet.norm
        simp only [ActionSet.mk.injEq, and_true, true_and]
        rw [List.map_set, fillCache_idem]
        apply List.ext_getElem?
        intro k
        rw [List.getElem?_set]
        by_cases hk : j = k
        · subst hk
          have hlt : j < A.elems.length := (List.getElem?_eq_some_iff.mp he).1
          rw [if_pos rfl, if_pos (by simpa using hlt), List.getElem?_map, he]; rfl
        · rw [if_neg hk]
      · rfl

/-- Everything an assignment of `x` reads. -/
structure SameSetup (ext : Ext K) (b b' : Builder K) : Prop where
  backend : b'.backend = b.backend
  coefs : b'.coefs = b.coefs
  intercept : b'.intercept = b.intercept
  varNames : b'.varNames = b.varNames
  costType : b'.costType = b.costType
  minItems : b'.minItems = b.minItems
  maxItems : b'.maxItems = b.maxItems
  aset : b'.aset.norm ext = b.aset.norm ext

theorem SameSetup.refl (ext : Ext K) (b : Builder K) : SameSetup ext b b :=
  ⟨rfl, rfl, rfl, rfl, rfl, rfl, rfl, rfl⟩

theorem SameSetup.trans {b c d : Builder K} (h : SameSetup ext b c) (g : SameSetup ext c d) : SameSetup ext b d :=
  ⟨g.1.trans h.1, g.2.trans h.2, g.3.trans h.3, g.4.trans h.4, g.5.trans h.5, g.6.trans h.6, g.7.trans h.7,
    g.8.trans h.8⟩

theorem SameFixed.setup (h : SameFixed b b') : SameSetup ext b b' :=
  ⟨h.backend, h.coefs, h.intercept, h.varNames, h.costType, h.minItems, h.maxItems, by rw [h.aset]⟩

theorem SameSetup.setX (hb : BuilderOK ext b) (x : List K) : SameSetup ext b (b.setX ext x).1 := by
  have hlen := hb.aset.wf.length
  unfold Builder.setX
  split_ifs with h
  · exact SameSetup.refl ext b
  · dsimp only
    split
    · exact ⟨rfl, rfl, rfl, rfl, rfl, rfl, rfl, norm_visit ext _ _⟩
    · split
      · exact ⟨rfl, rfl, rfl, rfl, rfl, rfl, rfl, norm_touch hlen true⟩
      · exact ⟨rfl, rfl, rfl, rfl, rfl, rfl, rfl, norm_touch hlen true⟩

theorem SameSetup.buildInfo (h : SameSetup ext b b') (x : List K) : b'.buildInfo ext x = b.buildInfo ext x := by
  have hc : b'.aset.cons = b.aset.cons := by
    have := congrArg ActionSet.cons h.aset; exact this
  have hy : b'.aset.yDesired = b.aset.yDesired := by
    have := congrArg ActionSet.yDesired h.aset; exact this
  have hg : b'.aset.feasibleGrid ext x true true = b.aset.feasibleGrid ext x true true := by
    rw [← feasibleGrid_norm, h.aset, feasibleGrid_norm]
  have hm : mkFeat ext b' x b'.aset.cons.flatNames = mkFeat ext b x b.aset.cons.flatNames := by
    funext g
    unfold mkFeat
    rw [h.costType, h.varNames, h.coefs, hc]
  unfold Builder.buildInfo
  dsimp only
  rw [hg, hm, hy, hc]

theorem SameSetup.buildArgs (h : SameSetup ext b b') (x : List K) (feats : List (Feat K)) :
    b'.buildArgs x feats = b.buildArgs x feats := by
  have hc : b'.aset.cons = b.aset.cons := by
    have := congrArg ActionSet.cons h.aset; exact this
  have hy : b'.aset.yDesired = b.aset.yDesired := by
    have := congrArg ActionSet.yDesired h.aset; exact this
  unfold Builder.buildArgs Builder.score
  rw [hc, hy, h.costType, h.minItems, h.maxItems, h.coefs, h.intercept]

/-- The result of an assignment, spelled out. -/
theorem setX_cases (ext : Ext K) (b : Builder K) (x : List K) :
    (x.length ≠ b.coefs.length ∧ b.setX ext x = (b, .error .assertion)) ∨
    (x.length = b.coefs.length ∧ ∃ er, b.buildInfo ext x = .error er ∧
      b.setX ext x = ({ b with x := some x, aset := b.aset.visit ext (b.aset.visitOrder ext) }, .error er)) ∨
    (x.length = b.coefs.length ∧ ∃ feats er, b.buildInfo ext x = .ok feats ∧
      buildMip b.backend (b.buildArgs x feats) = .error er ∧
      b.setX ext x = ({ b with x := some x, aset := b.aset.touch ext true }, .error er)) ∨
    (x.length = b.coefs.length ∧ ∃ feats m, b.buildInfo ext x = .ok feats ∧
      buildMip b.backend (b.buildArgs x feats) = .ok m ∧
      b.setX ext x = ({ b with
        x := some x, aset := b.aset.touch ext true, mip := some m, feats := feats, sol := .unknown }, .ok ())) := by
  by_cases hl : x.length ≠ b.coefs.length
  · left; exact ⟨hl, by unfold Builder.setX; rw [if_pos hl]⟩
  right
  have hl' : x.length = b.coefs.length := not_not.mp hl
  unfold Builder.setX
  rw [if_neg hl]
  dsimp only
  have hbi : ({ b with x := some x } : Builder K).buildInfo ext x = b.buildInfo ext x := rfl
  rw [hbi]
  cases hb : b.buildInfo ext x with
  | error e => left; exact ⟨hl', e, rfl, rfl⟩
  | ok feats =>
    right
    dsimp only
    have hba : ({ b with x := some x, aset := b.aset.touch ext true } : Builder K).buildArgs x feats
        = b.buildArgs x feats := rfl
    rw [hba]
    cases hm : buildMip b.backend (b.buildArgs x feats) with
    | error e => left; exact ⟨hl', feats, e, rfl, hm, rfl⟩
    | ok m => right; exact ⟨hl', feats, m, rfl, hm, rfl⟩

theorem SameSetup.assign (h : SameSetup ext b b') (x : List K) :
    (b'.setX ext x).2 = (b.setX ext x).2 ∧ ((b.setX ext x).2 = .ok () →
      (b'.setX ext x).1.mip = (b.setX ext x).1.mip ∧ (b'.setX ext x).1.feats = (b.setX ext x).1.feats) := by
  have hbi := h.buildInfo x
  rcases setX_cases ext b x with ⟨h1, h2⟩ | ⟨h1, er, h2, h3⟩ | ⟨h1, f, er, h2, h3, h4⟩ | ⟨h1, f, m, h2, h3, h4⟩
  · rw [h2]
    have : b'.setX ext x = (b', .error .assertion) := by
      unfold Builder.setX; rw [if_pos (by rw [h.coefs]; exact h1)]
    rw [this]; exact ⟨rfl, fun h => by cases h⟩
  all_goals
    rcases setX_cases ext b' x with ⟨g1, g2⟩ | ⟨g1, er', g2, g3⟩ | ⟨g1, f', er', g2, g3, g4⟩ | ⟨g1, f', m', g2, g3, g4⟩
    · exact absurd (h1.trans (by rw [h.coefs])) g1
    all_goals
      rw [hbi, h2] at g2
      cases g2
      try
        rw [h.buildArgs, h.backend, h3] at g3
        cases g3
  · rw [g3, h3]; exact ⟨rfl, fun h => by cases h⟩
  · rw [g4, h4]; exact ⟨rfl, fun h => by cases h⟩
  · rw [g4, h4]; exact ⟨rfl, fun _ => ⟨rfl, rfl⟩⟩

theorem Builder.Used.setup (hr : b0.Reachable ext) (hu : b0.Used ext b) :
    b.Reachable ext ∧ SameSetup ext b0 b := by
  induction hu with
  | refl => exact ⟨hr, SameSetup.refl ext b0⟩
  | setX x _ ih => exact ⟨.setX x ih.1, ih.2.trans (SameSetup.setX ih.1.ok x)⟩
  | fit _ h ih =>
    obtain ⟨-, rfl, -⟩ := fit_ok h
    exact ⟨.fit ih.1 h, ih.2.trans (SameFixed.solve _ _).setup⟩
  | populate _ h ih =>
    exact ⟨.populate ih.1 h, ih.2.trans (SameFixed.popLoop (populate_ok h).2.2).setup⟩

/-- **C33.**  Assigning `x` starts afresh: whatever points were assigned before (successfully or not),
solved and enumerated, with whatever solvers, assigning `x` has the same outcome as on the unused builder,
yields the same program, and the next `fit()` of a solver that answers equal programs equally gives the
same result. -/
theorem C33_fresh (hr : b0.Reachable ext) (hu : b0.Used ext b) :
    (b.setX ext x).2 = (b0.setX ext x).2 ∧
    ((b0.setX ext x).2 = .ok () →
      (b.setX ext x).1.mip = (b0.setX ext x).1.mip ∧
      ∀ o : Oracle K, (∀ k k' m, o k m = o k' m) → ∀ r r0, (b.setX ext x).1.fit o = .ok r →
        (b0.setX ext x).1.fit o = .ok r0 → r.2 = r0.2) := by
  obtain ⟨-, hs⟩ := hu.setup hr
  obtain ⟨h1, h2⟩ := hs.assign x
  refine ⟨h1, fun hok => ?_⟩
  obtain ⟨h3, h4⟩ := h2 hok
  refine ⟨h3, ?_⟩
  rintro o ho ⟨c, i⟩ ⟨c0, i0⟩ hf hf0
  obtain ⟨-, -, rfl⟩ := fit_ok hf
  obtain ⟨-, -, rfl⟩ := fit_ok hf0
  -- the fields read by `solution_info`
  have hok' : (b.setX ext x).2 = .ok () := h1.trans hok
  have fields : ∀ c : Builder K, (c.setX ext x).2 = .ok () → ∃ m, (c.setX ext x).1.mip = some m ∧
      (c.setX ext x).1.backend = c.backend ∧ (c.setX ext x).1.coefs = c.coefs ∧
      (c.setX ext x).1.costType = c.costType := by
    intro c hc
    rcases setX_cases ext c x with ⟨-, h2⟩ | ⟨-, er, -, h3⟩ | ⟨-, f, er, -, -, h4⟩ | ⟨-, f, m, -, -, h4⟩
    · rw [h2] at hc; cases hc
    · rw [h3] at hc; cases hc
    · rw [h4] at hc; cases hc
    · rw [h4]; exact ⟨m, rfl, rfl, rfl, rfl⟩
  obtain ⟨m, f1, f2, f3, f4⟩ := fields b hok'
  obtain ⟨m', g1, g2, g3, g4⟩ := fields b0 hok
  rw [f1, g1] at h3
  cases h3
  dsimp only
  unfold Builder.solve Builder.solutionInfo Builder.reported
  rw [f1, g1]
  dsimp only
  rw [ho (b.setX ext x).1.clock (b0.setX ext x).1.clock m, f2, f3, f4, g2, g3, g4, h4, hs.backend, hs.coefs,
    hs.costType]

/-- Non-vacuity of C33: a builder used for another point before. -/
example : ∃ b1 : Builder ℚ, exBuild .cpx .max [[0, 0], [1, 1]] ["a", "b"] .ok [1, 2] (-2) [0, 0] = .ok b1 ∧
    (b1.setX exExt [1, 0]).2 = .ok () ∧
    (b1.setX exExt [1, 0]).1.mip ≠ b1.mip ∧ ((b1.setX exExt [1, 0]).1.setX exExt [0, 0]).1.mip = b1.mip := by
  decide +kernel

/-! ## C34 -/

/-- **C34** (partial).  A failed assignment leaves the program alone, so that later fits answer as if it
had not been tried.  Missing from the full property ("the builder keeps its previous point"): unless the
point has the wrong length, the new point is stored (`C34_failed_refuted`). -/
theorem C34_failed_partial {er : Err} (h : b.setX ext x = (b1, .error er)) :
    b1.mip = b.mip ∧ b1.feats = b.feats ∧
    b1.x = (if x.length = b.coefs.length then some x else b.x) ∧
    ∀ o : Oracle K, (b1.fit o).map (·.2) = (b.fit o).map (·.2) := by
  have key : ∀ A' x', b1 = { b with x := x', aset := A' } → ∀ o : Oracle K,
      (b1.fit o).map (·.2) = (b.fit o).map (·.2) := by
    rintro A' x' rfl o
    unfold Builder.fit
    dsimp only
    cases hm : b.mip with
    | none => rfl
    | some m =>
      simp only [Except.map]
      congr 1
      unfold Builder.solve Builder.solutionInfo Builder.reported
      simp only [hm]
  rcases setX_cases ext b x with ⟨h1, h2⟩ | ⟨h1, e, -, h3⟩ | ⟨h1, f, e, -, -, h4⟩ | ⟨h1, f, m, -, -, h4⟩
  · rw [h] at h2; cases h2
    exact ⟨rfl, rfl, by rw [if_neg h1], fun _ => rfl⟩
  · rw [h] at h3; cases h3
    exact ⟨rfl, rfl, by rw [if_pos h1], key _ _ rfl⟩
  · rw [h] at h4; cases h4
    exact ⟨rfl, rfl, by rw [if_pos h1], key _ _ rfl⟩
  · rw [h] at h4; cases h4

/-- The full C34 is false: one binary feature, cost type `total`.  At the point 1 there is nothing to
change and the assignment raises (C36), but the builder now holds the point 1, while its program is still
that of the point 0. -/
theorem C34_failed_refuted (be : Backend) : ∃ b1 : Builder ℚ,
    exBuild be .total [[0], [1]] ["a"] .ok [1] (-1) [0] = .ok b1 ∧
    b1.x = some [0] ∧ (b1.setX exExt [1]).2 = .error .key ∧
    (b1.setX exExt [1]).1.x = some [1] ∧ (b1.setX exExt [1]).1.mip = b1.mip ∧ b1.mip ≠ none := by
  cases be <;> decide +kernel

/-! ## C36 -/

/-- **C36** (partial).  When no feature offers a second value, then for cost type `max` the assignment of
`x` succeeds and every sound solver leads to an infeasible answer with infinite cost.  Missing from the
full property: for the total and local cost types the assignment itself raises `KeyError` (second part,
an instance is `C36_empty_refuted`). -/
theorem C36_empty_partial (hso : SetOrderOk ext) (hr : b0.Reachable ext) {grid : List (GridEntry K)}
    (hl : b0.aset.cons.items = [])
    (hg : b0.aset.feasibleGrid ext x true true = .ok grid) (hlen : ∀ g ∈ grid, g.acts.length < 2) :
    (b0.costType = .max → (b0.setX ext x).2 = .ok () ∧
      ∀ o : Oracle K, o.Sound → ∀ b1 b i b', b0.setX ext x = (b1, .ok ()) → b1.After o b →
        b.fit o = .ok (b', i) → i.feasible = false ∧ i.cost = .inf) ∧
    (b0.costType ≠ .max → (b0.setX ext x).2 = .error .key) := by
  have hxl : x.length = b0.coefs.length := by
    unfold ActionSet.feasibleGrid at hg
    obtain ⟨_, h1, -⟩ := bind_ok_iff.mp hg
    rw [pyAssert_ok_iff, decide_eq_true_eq] at h1
    rw [h1, hr.ok.coefs]
  have hbi : b0.buildInfo ext x = .ok [] := by
    unfold Builder.buildInfo
    rw [hg]
    have : grid.filter (fun g => decide (2 ≤ g.acts.length)) = [] := by
      rw [List.filter_eq_nil_iff]
      intro g hgm
      have := hlen g hgm
      simp only [decide_eq_true_eq]; omega
    simp only [ok_bind, this]
    rfl
  have hmip : buildMip b0.backend (b0.buildArgs x []) = if b0.costType ≠ .max then .error .key else
      buildMip b0.backend (b0.buildArgs x []) := by
    split_ifs with hct
    · unfold buildMip buildCpx buildPy
      have h1 : (b0.buildArgs x []).limits = [] := hl
      have h2 : (b0.buildArgs x []).costType ≠ .max ∧ (b0.buildArgs x []).feats.isEmpty = true :=
        ⟨hct, rfl⟩
      cases b0.backend
      · dsimp only; rw [h1]; simp only [List.mapM_nil, pure_bind]; rw [if_pos h2]
      · dsimp only; rw [h1]; simp only [List.mapM_nil, pure_bind]; rw [if_pos h2]
    · rfl
  refine ⟨fun hct => ⟨?_, ?_⟩, fun hct => ?_⟩
  · have hm : ∃ m, buildMip b0.backend (b0.buildArgs x []) = .ok m := by
      unfold buildMip buildCpx buildPy
      have h1 : (b0.buildArgs x []).limits = [] := hl
      have h2 : ¬ ((b0.buildArgs x []).costType ≠ .max ∧ (b0.buildArgs x []).feats.isEmpty = true) :=
        fun h => h.1 hct
      cases b0.backend
      · dsimp only; rw [h1]; simp only [List.mapM_nil, pure_bind]; rw [if_neg h2]; exact ⟨_, rfl⟩
      · dsimp only; rw [h1]; simp only [List.mapM_nil, pure_bind]; rw [if_neg h2]; exact ⟨_, rfl⟩
    obtain ⟨m, hm⟩ := hm
    rcases setX_cases ext b0 x with ⟨h1, h2⟩ | ⟨h1, e, h2, h3⟩ | ⟨h1, f, e, h2, h3, h4⟩ | ⟨h1, f, m, h2, h3, h4⟩
    · exact absurd hxl h1
    · rw [hbi] at h2; cases h2
    · rw [hbi] at h2; cases h2; rw [hm] at h3; cases h3
    · rw [h4]
  · intro o ho b1 b i b' hx ha hf
    obtain ⟨feats, h1, h2, h3⟩ := Posed.setX hso hr.ok hx
    rw [hbi] at h1; cases h1
    obtain ⟨Q, -, hq⟩ := h3.after h2 ho ha
    obtain ⟨-, -, rfl⟩ := fit_ok hf
    rcases hq.solved h2 ho with ⟨-, he, -⟩ | ⟨σ, κ, -, -, hk, -, -, -⟩
    · rw [he]; exact ⟨rfl, rfl⟩
    · exfalso
      have h5 : max b0.minItems 1 ≤ choiceSize ([] : List (Feat K)) κ := hk.lo
      have h6 := le_trans (le_max_right b0.minItems 1) h5
      simp [choiceSize] at h6
  · rw [if_pos hct] at hmip
    rcases setX_cases ext b0 x with ⟨h1, h2⟩ | ⟨h1, e, h2, h3⟩ | ⟨h1, f, e, h2, h3, h4⟩ | ⟨h1, f, m, h2, h3, h4⟩
    · exact absurd hxl h1
    · rw [hbi] at h2; cases h2
    · rw [hbi] at h2; cases h2; rw [hmip] at h3; cases h3; rw [h4]
    · rw [hbi] at h2; cases h2; rw [hmip] at h3; cases h3

/-- The full C36 is false: one binary feature with value 1 that should increase; cost type `total`. -/
theorem C36_empty_refuted (be : Backend) :
    exBuild be .total [[0], [1]] ["a"] .ok [1] (-2) [1] = .error .key := by
  have h : (exBuild be .total [[0], [1]] ["a"] .ok [1] (-2) [1]).map (fun _ => ()) = .error .key := by
    cases be <;> decide +kernel
  cases hb : exBuild be .total [[0], [1]] ["a"] .ok [1] (-2) [1] with
  | ok b => rw [hb] at h; cases h
  | error e => rw [hb] at h; simpa [Except.map] using h

/-- Non-vacuity of C36: the same with cost type `max`. -/
example : ∃ b1 : Builder ℚ, exBuild .cpx .max [[0], [1]] ["a"] .ok [1] (-2) [1] = .ok b1 ∧
    b1.aset.cons.items = [] ∧ ∃ grid : List (GridEntry ℚ), b1.aset.feasibleGrid exExt [1] true true = .ok grid ∧
    grid.map (·.acts) = [[0]] := by decide +kernel

end Recourse
