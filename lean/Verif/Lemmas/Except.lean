import Verif.Py
import Mathlib.Data.List.Forall2

/-! # Inversion lemmas for computations that may raise -/

namespace Recourse

variable {ε α β : Type}

theorem bind_ok_iff {x : Except ε α} {f : α → Except ε β} {b : β} :
    (x >>= f) = .ok b ↔ ∃ a, x = .ok a ∧ f a = .ok b := by
  cases x with
  | error e => simp [bind, Except.bind]
  | ok a => simp [bind, Except.bind]

theorem bind_error_iff {x : Except ε α} {f : α → Except ε β} {e : ε} :
    (x >>= f) = .error e ↔ x = .error e ∨ ∃ a, x = .ok a ∧ f a = .error e := by
  cases x with
  | error e => simp [bind, Except.bind]
  | ok a => simp [bind, Except.bind]

@[simp] theorem ok_bind (a : α) (f : α → Except ε β) : (Except.ok a >>= f) = f a := rfl
@[simp] theorem error_bind (e : ε) (f : α → Except ε β) : (Except.error e >>= f) = .error e := rfl

@[simp] theorem pyAssert_true : pyAssert true = .ok () := rfl
@[simp] theorem pyAssert_false : pyAssert false = .error .assertion := rfl

theorem pyAssert_ok_iff {c : Bool} {u : Unit} : pyAssert c = .ok u ↔ c = true := by
  cases c <;> simp [pyAssert]

theorem pyAssert_bind_ok {c : Bool} {f : Unit → Except Err β} {b : β} :
    (pyAssert c >>= f) = .ok b ↔ c = true ∧ f () = .ok b := by
  cases c <;> simp [pyAssert]

theorem mapM_ok_cons {f : α → Except ε β} {a : α} {l : List α} {r : List β} :
    (a :: l).mapM f = .ok r ↔ ∃ b t, f a = .ok b ∧ l.mapM f = .ok t ∧ r = b :: t := by
  rw [List.mapM_cons]
  simp only [bind_ok_iff]
  constructor
  · rintro ⟨b, hb, t, ht, h⟩
    exact ⟨b, t, hb, ht, by cases h; rfl⟩
  · rintro ⟨b, t, hb, ht, rfl⟩
    exact ⟨b, hb, t, ht, rfl⟩

/-- `mapM` succeeds with `r` iff `f` succeeds pointwise. -/
theorem mapM_ok_iff {f : α → Except ε β} {l : List α} {r : List β} :
    l.mapM f = .ok r ↔ List.Forall₂ (fun a b => f a = .ok b) l r := by
  induction l generalizing r with
  | nil => simp [List.mapM_nil, pure, Except.pure, eq_comm]
  | cons a t ih =>
    rw [mapM_ok_cons]
    constructor
    · rintro ⟨b, t', hb, ht, rfl⟩
      exact List.Forall₂.cons hb (ih.mp ht)
    · intro h
      cases h with
      | cons hb ht => exact ⟨_, _, hb, ih.mpr ht, rfl⟩

theorem mapM_ok_length {f : α → Except ε β} {l : List α} {r : List β} (h : l.mapM f = .ok r) :
    r.length = l.length := (mapM_ok_iff.mp h).length_eq.symm

theorem mapM_ok_mem {f : α → Except ε β} {l : List α} {r : List β} (h : l.mapM f = .ok r) {b : β}
    (hb : b ∈ r) : ∃ a ∈ l, f a = .ok b := by
  rw [mapM_ok_iff] at h
  induction h with
  | nil => simp at hb
  | cons hab _ ih =>
    rcases List.mem_cons.mp hb with rfl | hb
    · exact ⟨_, List.mem_cons_self, hab⟩
    · obtain ⟨a, ha, h⟩ := ih hb
      exact ⟨a, List.mem_cons_of_mem _ ha, h⟩

theorem mapM_ok_mem' {f : α → Except ε β} {l : List α} {r : List β} (h : l.mapM f = .ok r) {a : α}
    (ha : a ∈ l) : ∃ b ∈ r, f a = .ok b := by
  rw [mapM_ok_iff] at h
  induction h with
  | nil => simp at ha
  | cons hab _ ih =>
    rcases List.mem_cons.mp ha with rfl | ha
    · exact ⟨_, List.mem_cons_self, hab⟩
    · obtain ⟨a, ha, h⟩ := ih ha
      exact ⟨a, List.mem_cons_of_mem _ ha, h⟩

end Recourse
