import Verif.Model.CLib

/-! # Facts about the C library functions: on a memory object that holds a NUL-terminated string -/

set_option autoImplicit false

namespace RR32

/-- A list without NUL: the content of a C string. -/
def NoNul (s : List Byte) : Prop := ∀ c ∈ s, c ≠ 0#8

instance (s : List Byte) : Decidable (NoNul s) := by unfold NoNul; infer_instance

@[simp] theorem noNul_nil : NoNul [] := by intro c h; cases h

theorem noNul_cons {c : Byte} {s : List Byte} : NoNul (c :: s) ↔ c ≠ 0#8 ∧ NoNul s := by
  simp [NoNul]

theorem noNul_append {s t : List Byte} : NoNul (s ++ t) ↔ NoNul s ∧ NoNul t := by
  simp only [NoNul, List.mem_append]
  constructor
  · intro h; exact ⟨fun c hc => h c (Or.inl hc), fun c hc => h c (Or.inr hc)⟩
  · rintro ⟨h1, h2⟩ c (hc | hc)
    · exact h1 c hc
    · exact h2 c hc

theorem NoNul.take {s : List Byte} (h : NoNul s) (n : Nat) : NoNul (s.take n) := fun c hc => h c (List.mem_of_mem_take hc)

theorem NoNul.drop {s : List Byte} (h : NoNul s) (n : Nat) : NoNul (s.drop n) := fun c hc => h c (List.mem_of_mem_drop hc)

theorem cstr_eq (s r : List Byte) (h : NoNul s) : cstr (s ++ 0#8 :: r) = .ok s := by
  induction s with
  | nil => simp [cstr]
  | cons c s ih =>
    rw [noNul_cons] at h
    simp [cstr, h.1, ih h.2, bind, Except.bind]

theorem cstr_noNul (s : List Byte) (h : NoNul s) : cstr s = .error .oobRead := by
  induction s with
  | nil => rfl
  | cons c s ih =>
    rw [noNul_cons] at h
    simp [cstr, h.1, ih h.2, bind, Except.bind]

/-- Every memory object either holds a C string or has no NUL at all. -/
theorem cstring_cases (m : List Byte) : NoNul m ∨ ∃ s r, m = s ++ 0#8 :: r ∧ NoNul s := by
  induction m with
  | nil => exact Or.inl noNul_nil
  | cons c m ih =>
    by_cases hc : c = 0#8
    · exact Or.inr ⟨[], m, by simp [hc], noNul_nil⟩
    · rcases ih with h | ⟨s, r, h1, h2⟩
      · exact Or.inl (noNul_cons.mpr ⟨hc, h⟩)
      · exact Or.inr ⟨c :: s, r, by simp [h1], noNul_cons.mpr ⟨hc, h2⟩⟩

theorem strlen_eq (s r : List Byte) (h : NoNul s) : strlen (s ++ 0#8 :: r) = .ok s.length := by
  simp [strlen, cstr_eq s r h, bind, Except.bind]

theorem strncpyBytes_eq (n : Nat) (s r : List Byte) (h : NoNul s) :
    strncpyBytes n (s ++ 0#8 :: r) = .ok (s.take n ++ List.replicate (n - s.length) 0#8) := by
  induction s generalizing n with
  | nil => cases n <;> simp [strncpyBytes]
  | cons c s ih =>
    rw [noNul_cons] at h
    cases n with
    | zero => simp [strncpyBytes]
    | succ n => simp [strncpyBytes, h.1, ih n h.2, bind, Except.bind]

/-- A source without terminator is fine as long as the count does not exceed it. -/
theorem strncpyBytes_long (n : Nat) (s : List Byte) (h : NoNul s) (hn : n ≤ s.length) :
    strncpyBytes n s = .ok (s.take n) := by
  induction s generalizing n with
  | nil =>
    have : n = 0 := by simpa using hn
    subst this
    simp [strncpyBytes]
  | cons c s ih =>
    rw [noNul_cons] at h
    cases n with
    | zero => simp [strncpyBytes]
    | succ n => simp [strncpyBytes, h.1, ih n h.2 (by simpa using hn), bind, Except.bind]

theorem poke_eq (dst l : List Byte) (h : l.length ≤ dst.length) : poke dst l = .ok (l ++ dst.drop l.length) := by
  simp [poke, h]

theorem strncpy_eq (dst : List Byte) (n : Nat) (s r : List Byte) (h : NoNul s) (hn : n ≤ dst.length) :
    strncpy dst (s ++ 0#8 :: r) n = .ok (s.take n ++ List.replicate (n - s.length) 0#8 ++ dst.drop n) := by
  have hl : (s.take n ++ List.replicate (n - s.length) (0#8 : Byte)).length = n := by simp; omega
  simp only [strncpy, strncpyBytes_eq n s r h, bind, Except.bind]
  rw [poke_eq _ _ (by omega), hl]

end RR32
