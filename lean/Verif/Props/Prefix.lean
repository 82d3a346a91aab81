import Verif.Props.Flip
import Verif.Lemmas.Enum
import Verif.Lemmas.Stable

/-!
# C115: asking for more items appends items
-/

set_option linter.unusedSectionVars false

namespace Recourse

variable {K : Type} [Field K] [LinearOrder K] [IsStrictOrderedRing K] [FloorRing K]

variable {ext : Ext K} {o : Oracle K} {et : EnumType} {b b1 b2 : Builder K} {acc L1 L2 : List (Info K)}

/-! ## Builders -/

theorem popLoop_zero (f : ℕ) (b : Builder K) (acc : List (Info K)) : b.popLoop o et f (some 0) acc = some (b, acc) := by
  cases f <;> rfl

theorem popLoop_dry {t : Option ℕ} (ht : t ≠ some 0) (b : Builder K) (acc : List (Info K)) : b.popLoop o et 0 t acc = none := by
  rcases t with _ | _ | m
  · rfl
  · exact absurd rfl ht
  · rfl

theorem popLoop_next {t : Option ℕ} (ht : t ≠ some 0) (f : ℕ) (b : Builder K) (acc : List (Info K)) : b.popLoop o et (f + 1) t acc =
    match (b.solve o).reported with
    | none => some (b.solve o, acc)
    | some σ => Builder.popLoop o et f (t.map (· - 1)) ((b.solve o).removeSolution et σ) (acc ++ [(b.solve o).solutionInfo]) := by
  rcases t with _ | _ | m
  · rfl
  · exact absurd rfl ht
  · rfl

/-- How the loop continues: either it found all items it was asked for, and loops that were asked for more go on from there; or it stopped because the
solver reported no further item, and loops that were asked for more stop at the same point. -/
theorem popLoop_split {k f : ℕ} (h : b.popLoop o et f (some k) acc = some (b1, L1)) :
    (L1.length = acc.length + k ∧ ∀ g t, b.popLoop o et (k + g) (Option.map (· + k) t) acc = b1.popLoop o et g t L1) ∨
    (L1.length < acc.length + k ∧ ∀ g t, f ≤ g → (∀ m, t = some m → k ≤ m) → b.popLoop o et g t acc = some (b1, L1)) := by
  induction k generalizing f b acc with
  | zero =>
    rw [popLoop_zero] at h; cases h
    refine Or.inl ⟨rfl, fun g t => ?_⟩
    rw [Nat.zero_add]
    cases t <;> rfl
  | succ k ih =>
    have hk0 : some (k + 1) ≠ some 0 := fun e => by cases e
    cases f with
    | zero => rw [popLoop_dry hk0] at h; cases h
    | succ f =>
      rw [popLoop_next hk0] at h
      have hpos : ∀ t : Option ℕ, (∀ m, t = some m → k + 1 ≤ m) → t ≠ some 0 := fun t ht e => absurd (ht 0 e) (by omega)
      rcases hr : (b.solve o).reported with _ | σ
      · rw [hr] at h
        dsimp only at h
        cases h
        refine Or.inr ⟨by omega, fun g t hg ht => ?_⟩
        obtain ⟨g, rfl⟩ : ∃ g', g = g' + 1 := ⟨g - 1, by omega⟩
        rw [popLoop_next (hpos t ht), hr]
      · rw [hr] at h
        dsimp only [Option.map_some] at h
        rw [Nat.add_sub_cancel] at h
        rcases ih h with ⟨h1, h2⟩ | ⟨h1, h2⟩
        · refine Or.inl ⟨by rw [h1, List.length_append]; simp only [List.length_cons, List.length_nil]; omega, fun g t => ?_⟩
          rw [← h2 g t, show k + 1 + g = (k + g) + 1 by omega, popLoop_next, hr]
          · dsimp only
            congr 1
            rcases t with _ | m
            · rfl
            · simp only [Option.map_some]; congr 1
          · rcases t with _ | m
            · exact fun e => by cases e
            · exact fun e => by cases e
        · refine Or.inr ⟨by rw [List.length_append] at h1; simp only [List.length_cons, List.length_nil] at h1; omega, fun g t hg ht => ?_⟩
          obtain ⟨g, rfl⟩ : ∃ g', g = g' + 1 := ⟨g - 1, by omega⟩
          rw [popLoop_next (hpos t ht), hr]
          refine h2 g _ (by omega) fun m hm => ?_
          obtain ⟨q, hq, rfl⟩ := Option.map_eq_some_iff.mp hm
          have := ht q hq
          omega

/-- Loops only append. -/
theorem popLoop_from (f : ℕ) (t : Option ℕ) (b : Builder K) (acc : List (Info K)) :
    b.popLoop o et f t acc = (b.popLoop o et f t []).map fun p => (p.1, acc ++ p.2) := by
  by_cases ht : t = some 0
  · subst ht; rw [popLoop_zero, popLoop_zero, Option.map_some, List.append_nil]
  induction f generalizing t b acc with
  | zero => rw [popLoop_dry ht, popLoop_dry ht]; rfl
  | succ f ih =>
    rw [popLoop_next ht, popLoop_next ht]
    rcases (b.solve o).reported with _ | σ
    · dsimp only; rw [Option.map_some, List.append_nil]
    · dsimp only
      by_cases ht' : t.map (· - 1) = some 0
      · rw [ht', popLoop_zero, popLoop_zero]; rfl
      · rw [ih _ _ _ ht', ih _ _ ([] ++ _) ht', Option.map_map]
        congr 1
        funext p
        dsimp only [Function.comp]
        rw [List.nil_append, List.append_assoc]

/-- More fuel does not change the result. -/
theorem popLoop_fuel {f g : ℕ} {t : Option ℕ} {p : Builder K × List (Info K)} (h : b.popLoop o et f t acc = some p) (hg : f ≤ g) :
    b.popLoop o et g t acc = some p := by
  by_cases ht : t = some 0
  · subst ht; rw [popLoop_zero] at h ⊢; exact h
  induction f generalizing t b acc g with
  | zero => rw [popLoop_dry ht] at h; cases h
  | succ f ih =>
    obtain ⟨g, rfl⟩ : ∃ g', g = g' + 1 := ⟨g - 1, by omega⟩
    rw [popLoop_next ht] at h ⊢
    rcases hr : (b.solve o).reported with _ | σ
    · rw [hr] at h; exact h
    · rw [hr] at h
      dsimp only at h ⊢
      by_cases ht' : t.map (· - 1) = some 0
      · rw [ht', popLoop_zero] at h ⊢; exact h
      · exact ih h (by omega) ht'

/-- Enumeration keeps the builder ready for more. -/
theorem popLoop_mip {f : ℕ} {t : Option ℕ} (h : b.popLoop o et f t acc = some (b1, L1)) : b1.mip.isSome = b.mip.isSome := by
  induction f generalizing t b acc with
  | zero =>
    by_cases ht : t = some 0
    · subst ht; rw [popLoop_zero] at h; cases h; rfl
    · rw [popLoop_dry ht] at h; cases h
  | succ f ih =>
    by_cases ht : t = some 0
    · subst ht; rw [popLoop_zero] at h; cases h; rfl
    rw [popLoop_next ht] at h
    have hs : (b.solve o).mip.isSome = b.mip.isSome := by
      unfold Builder.solve
      rcases hb : b.mip with _ | m
      · exact congrArg Option.isSome hb
      · dsimp only
    rcases hr : (b.solve o).reported with _ | σ
    · rw [hr] at h; cases h; exact hs
    · rw [hr] at h
      refine (ih h).trans ?_
      rw [← hs]
      unfold Builder.removeSolution
      cases et <;> (dsimp only; rw [Option.isSome_map])

/-- `populate` is the loop. -/
theorem populate_loop {f : ℕ} {t : Option ℕ} (hm : b.mip.isSome) (ht : ∀ n, t = some n → 1 ≤ n) :
    b.populate o et f t = .ok (b.popLoop o et f t []) := by
  unfold Builder.populate
  obtain ⟨m, hm⟩ := Option.isSome_iff_exists.mp hm
  rw [hm, if_neg (by exact Bool.false_ne_true)]
  rcases t with _ | n
  · rfl
  · dsimp only; rw [decide_eq_true (ht n rfl)]; rfl

/-- **C115**, one list: whoever asks for at most `k` items gets the first ones (all, if there are no more than `k`) of those that the same builder finds for
whoever asks for more, or for all. -/
theorem C115_prefix {k f g : ℕ} {t : Option ℕ} (h1 : b.populate o et f (some k) = .ok (some (b1, L1)))
    (h2 : b.populate o et g t = .ok (some (b2, L2))) (ht : ∀ m, t = some m → k ≤ m) : L1 = L2.take k ∧ (L1.length < k → b2 = b1) := by
  obtain ⟨-, -, h1⟩ := populate_ok h1
  obtain ⟨-, -, h2⟩ := populate_ok h2
  rcases popLoop_split h1 with ⟨e1, e2⟩ | ⟨e1, e2⟩
  · rw [List.length_nil, Nat.zero_add] at e1
    refine ⟨?_, fun h => absurd h (by omega)⟩
    have h2' := popLoop_fuel h2 (Nat.le_add_left g k)
    have e3 : b1.popLoop o et g (t.map (· - k)) L1 = some (b2, L2) := by
      rw [← e2, ← h2']
      congr 1
      rcases t with _ | m
      · rfl
      · simp only [Option.map_some]; rw [Nat.sub_add_cancel (ht m rfl)]
    rw [popLoop_from] at e3
    obtain ⟨p, -, hp⟩ := Option.map_eq_some_iff.mp e3
    cases hp
    rw [← e1, List.take_left]
  · rw [List.length_nil, Nat.zero_add] at e1
    have h2' := popLoop_fuel h2 (Nat.le_max_right f g)
    rw [e2 (max f g) t (Nat.le_max_left f g) ht] at h2'
    cases h2'
    exact ⟨(List.take_of_length_le (Nat.le_of_lt e1)).symm, fun _ => rfl⟩

/-- **C115**, in steps: when the first call found the `k` items it was asked for, a second call goes on where it stopped: both together give the items and the builder
that one call for both gives. -/
theorem C115_steps {k f g : ℕ} {t : Option ℕ} (h1 : b.populate o et f (some k) = .ok (some (b1, L1))) (hk : L1.length = k)
    (h2 : b1.populate o et g t = .ok (some (b2, L2))) :
    b.populate o et (k + g) (t.map (· + k)) = .ok (some (b2, L1 ++ L2)) := by
  obtain ⟨⟨m, hm⟩, hk1, h1⟩ := populate_ok h1
  obtain ⟨-, -, h2⟩ := populate_ok h2
  rcases popLoop_split h1 with ⟨-, e2⟩ | ⟨e1, -⟩
  · rw [populate_loop (by rw [hm]; rfl), e2, popLoop_from, h2]
    · rfl
    · intro n hn
      rcases t with _ | q
      · cases hn
      · cases hn
        have := hk1 k rfl
        dsimp only
        omega
  · rw [List.length_nil, Nat.zero_add] at e1
    omega

/-! ## Flipsets -/

variable {fs fs1 fs2 : Flipset K}

theorem sortRows_bare (cols : List SortCol) (rows : List (FlipRow K)) :
    (sortRows cols rows).map FlipRow.bare = sortRows cols (rows.map FlipRow.bare) := by
  have hb : ∀ (cols : List SortCol) (r s : FlipRow K), rowLe cols r.bare s.bare = rowLe cols r s := by
    intro cols r s
    induction cols with
    | nil => rfl
    | cons c cs ih =>
      unfold rowLe
      rw [ih]
      have e : ∀ r s : FlipRow K, c.le r.bare s.bare = c.le r s := fun r s => by cases c <;> rfl
      rw [e, e]
  unfold sortRows
  exact List.map_insertionSort _ _ _ _ fun r _ s _ => by rw [hb]

theorem sortRows_absorb (cols : List SortCol) (l l' : List (FlipRow K)) : sortRows cols (sortRows cols l ++ l') = sortRows cols (l ++ l') := by
  unfold sortRows
  exact insertionSort_absorb (rowLe_total cols) (fun _ _ _ => rowLe_trans cols) l l'

theorem itemRow_congr (h1 : fs1.names = fs.names) (h2 : fs1.x = fs.x) (h3 : fs1.coefs = fs.coefs) (h4 : fs1.intercept = fs.intercept) (n : ℕ) :
    fs1.itemRow n = fs.itemRow n := by
  obtain ⟨aset, names, backend, x, coefs, intercept, builder, items, rows, sortBy, inp⟩ := fs
  obtain ⟨aset', names', backend', x', coefs', intercept', builder', items', rows', sortBy', inp'⟩ := fs1
  dsimp only at h1 h2 h3 h4
  subst h1 h2 h3 h4
  rfl

/-- What `_add` leaves alone, and what it adds. -/
theorem add_pieces (h : fs.add L1 = .ok fs1) : fs1.aset = fs.aset ∧ fs1.builder = fs.builder ∧ fs1.names = fs.names ∧ fs1.x = fs.x ∧ fs1.coefs = fs.coefs ∧
    fs1.intercept = fs.intercept ∧ fs1.backend = fs.backend ∧ fs1.sortBy = fs.sortBy ∧ fs1.sortInplace = fs.sortInplace ∧
    fs1.items = fs.items ++ L1 ∧ (∀ i ∈ L1, ItemOK fs i) ∧
    (L1 ≠ [] → fs1.rows.map FlipRow.bare = if fs.sortInplace then sortRows fs.sortBy ((fs.rows ++ L1.map (fs.itemRow 0)).map FlipRow.bare)
      else (fs.rows ++ L1.map (fs.itemRow 0)).map FlipRow.bare) ∧ (L1 = [] → fs1.rows = fs.rows) := by
  obtain ⟨h1, rfl⟩ := flipAdd_ok h
  rcases L1 with _ | ⟨i, L1⟩
  · exact ⟨rfl, rfl, rfl, rfl, rfl, rfl, rfl, rfl, rfl, by rw [List.append_nil]; rfl, h1, fun e => absurd rfl e, fun _ => rfl⟩
  · rw [if_neg (by exact Bool.false_ne_true)]
    unfold Flipset.resort
    by_cases hs : fs.sortInplace = true
    · have hs' : (fs.appended (i :: L1)).sortInplace = true := hs
      rw [if_pos hs', if_pos hs]
      refine ⟨rfl, rfl, rfl, rfl, rfl, rfl, rfl, rfl, rfl, rfl, h1, fun _ => ?_, fun e => by cases e⟩
      dsimp only
      rw [sortRows_bare]
      unfold Flipset.appended
      dsimp only
      rw [relabel_bare]
    · have hs' : ¬ (fs.appended (i :: L1)).sortInplace = true := hs
      rw [if_neg hs', if_neg hs]
      refine ⟨rfl, rfl, rfl, rfl, rfl, rfl, rfl, rfl, rfl, rfl, h1, fun _ => ?_, fun e => by cases e⟩
      unfold Flipset.appended
      dsimp only
      rw [relabel_bare]

/-- One addition is as good as two. -/
theorem add_append (h1 : fs.add L1 = .ok fs1) (h2 : fs1.add L2 = .ok fs2) (hne : L1 ≠ []) : ∃ fs3, fs.add (L1 ++ L2) = .ok fs3 ∧
    fs3.items = fs2.items ∧ fs3.rows.map FlipRow.bare = fs2.rows.map FlipRow.bare ∧ fs3.aset = fs2.aset ∧ fs3.builder = fs2.builder := by
  obtain ⟨a1, a2, a3, a4, a5, a6, a7, a8, a9, a10, a11, a12, -⟩ := add_pieces h1
  obtain ⟨b1, b2, b3, b4, b5, b6, b7, b8, b9, b10, b11, b12, b13⟩ := add_pieces h2
  have hok : ∀ i ∈ L1 ++ L2, ItemOK fs i := by
    intro i hi
    rcases List.mem_append.mp hi with hi | hi
    · exact a11 i hi
    · exact (b11 i hi).congr a3.symm a4.symm a5.symm a6.symm
  have hex : ∃ fs3, fs.add (L1 ++ L2) = .ok fs3 := by
    unfold Flipset.add
    rw [mapM_validate_ok hok, ok_bind]
    dsimp only
    rcases hq : (L1 ++ L2).isEmpty with _ | _
    · exact ⟨_, rfl⟩
    · exact ⟨_, rfl⟩
  obtain ⟨fs3, h3⟩ := hex
  obtain ⟨c1, c2, -, -, -, -, -, -, -, c10, -, c12, -⟩ := add_pieces h3
  refine ⟨fs3, h3, by rw [c10, b10, a10, List.append_assoc], ?_, by rw [c1, b1, a1], by rw [c2, b2, a2]⟩
  have a12 := a12 hne
  rw [c12 (by simp [hne])]
  by_cases hL : L2 = []
  · rw [b13 hL, a12, hL, List.append_nil]
  · rw [b12 hL, a8, a9, itemRow_congr a3 a4 a5 a6]
    by_cases hs : fs.sortInplace = true
    · rw [if_pos hs] at a12 ⊢
      rw [if_pos hs, List.map_append (l₁ := fs1.rows), a12, sortRows_absorb, ← List.map_append, List.map_append (l₁ := L1), List.append_assoc]
    · rw [if_neg hs] at a12 ⊢
      rw [if_neg hs, List.map_append (l₁ := fs1.rows), a12, ← List.map_append, List.map_append (l₁ := L1), List.append_assoc]

/-- `populate` for a builder that is there. -/
theorem populate_made {ct : CostType} {A : ActionSet K} {b0 : Builder K} {f : ℕ} {t : Option ℕ} {fs3 : Flipset K} (hm : fs.Made ext ct A b0)
    (hp : b0.populate o et f t = .ok (some (b2, L1))) (ha : ({ fs with aset := A, builder := some b2 } : Flipset K).add L1 = .ok fs3) :
    fs.populate ext o f t et ct = some (fs3, .ok ()) := by
  unfold Flipset.populate
  rcases hm with ⟨hb, rfl⟩ | ⟨hb, c, hc, hx, rfl⟩
  · simp only [hb, hp, ha]
  · simp only [hb, hc, hx, hp, ha]

/-- **C115**, flipsets: when the first call of `populate` added the `k` items it was asked for, calling `populate` again gives the same
items and the same table (up to the numbers of the rows) as one call for both, also if it is told another cost type. -/
theorem C115_flipset {ct ct' : CostType} {k f g : ℕ} {t : Option ℕ} (h1 : fs.populate ext o f (some k) et ct = some (fs1, .ok ()))
    (hk : fs1.items.length = fs.items.length + k) (h2 : fs1.populate ext o g t et ct' = some (fs2, .ok ())) :
    ∃ fs3, fs.populate ext o (k + g) (t.map (· + k)) et ct = some (fs3, .ok ()) ∧
      fs3.items = fs2.items ∧ fs3.rows.map FlipRow.bare = fs2.rows.map FlipRow.bare ∧ fs3.aset = fs2.aset ∧ fs3.builder = fs2.builder := by
  rcases populate_cases h1 with ⟨er, e, -⟩ | ⟨er, c, b0, e, -⟩ | ⟨er, A, b0, e, -⟩ | ⟨er, A, b0, b, infos, e, -⟩ |
    ⟨A, b0, b, L1, -, hm, hp, ha⟩
  · cases e
  · cases e
  · cases e
  · cases e
  rcases populate_cases h2 with ⟨er, e, -⟩ | ⟨er, c, b0, e, -⟩ | ⟨er, A, b0, e, -⟩ | ⟨er, A, b0, b, infos, e, -⟩ |
    ⟨A', b0', b', L2, -, hm', hp', ha'⟩
  · cases e
  · cases e
  · cases e
  · cases e
  obtain ⟨a1, a2, a3, a4, a5, a6, a7, a8, a9, a10, a11, a12, a13⟩ := add_pieces ha
  have hbe : b0' = b ∧ A' = A := by
    rcases hm' with ⟨hb, rfl⟩ | ⟨hb, -⟩
    · rw [a2] at hb; exact ⟨(Option.some.inj hb).symm, a1⟩
    · rw [a2] at hb; cases hb
  obtain ⟨rfl, rfl⟩ := hbe
  have hlen : L1.length = k := by
    rw [a10, List.length_append] at hk
    dsimp only at hk
    omega
  have hne : L1 ≠ [] := by
    rintro rfl
    obtain ⟨-, q, -⟩ := populate_ok hp
    have := q k rfl
    rw [List.length_nil] at hlen
    omega
  have hpp := C115_steps hp hlen hp'
  -- the first addition, with the last builder
  obtain ⟨g0, h0, g1⟩ : ∃ g0, ({ fs with aset := A', builder := some b' } : Flipset K).add L1 = .ok g0 ∧
      g0 = { fs1 with aset := A', builder := some b' } := by
    obtain ⟨q1, q2⟩ := flipAdd_ok ha
    refine ⟨_, ?_, rfl⟩
    rw [q2]
    unfold Flipset.add
    have hv := mapM_validate_ok (fs := ({ fs with aset := A', builder := some b' } : Flipset K)) (l := L1) fun i hi => (q1 i hi).congr rfl rfl rfl rfl
    rw [hv, ok_bind]
    dsimp only
    rcases hq : L1.isEmpty with _ | _
    · rw [if_neg Bool.false_ne_true, if_neg Bool.false_ne_true]
      unfold Flipset.resort Flipset.appended
      dsimp only
      split <;> rfl
    · exact absurd (List.isEmpty_iff.mp hq) hne
  subst g1
  obtain ⟨fs3, k1, k2, k3, k4, k5⟩ := add_append h0 ha' hne
  exact ⟨fs3, populate_made hm hpp k1, k2, k3, k4, k5⟩

end Recourse
