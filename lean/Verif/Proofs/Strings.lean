import Verif.Proofs.CLib
import Verif.Spec.Strings

/-! # The C library functions in terms of `Spec.text` -/

set_option autoImplicit false

namespace RR32

open Spec

theorem text_nil : text [] = [] := rfl
theorem text_zero (m : List Byte) : text (0#8 :: m) = [] := rfl
theorem text_cons {c : Byte} (h : c ≠ 0#8) (m : List Byte) : text (c :: m) = c :: text m := by
  simp [text, h]

theorem text_noNul (m : List Byte) : NoNul (text m) := by
  induction m with
  | nil => exact noNul_nil
  | cons c m ih =>
    by_cases hc : c = 0#8
    · subst hc; exact noNul_nil
    · rw [text_cons hc]; exact noNul_cons.mpr ⟨hc, ih⟩

theorem text_append_zero (s r : List Byte) (h : NoNul s) : text (s ++ 0#8 :: r) = s := by
  induction s with
  | nil => rfl
  | cons c s ih =>
    rw [noNul_cons] at h
    rw [List.cons_append, text_cons h.1, ih h.2]

theorem text_of_noNul (s : List Byte) (h : NoNul s) : text s = s := by
  induction s with
  | nil => rfl
  | cons c s ih =>
    rw [noNul_cons] at h
    rw [text_cons h.1, ih h.2]

theorem text_append_zeros (s : List Byte) (h : NoNul s) (n : Nat) : text (s ++ List.replicate n 0#8) = s := by
  cases n with
  | zero => rw [List.replicate_zero, List.append_nil, text_of_noNul s h]
  | succ n => rw [List.replicate_succ, text_append_zero s _ h]

theorem text_length_le (m : List Byte) : (text m).length ≤ m.length :=
  (List.takeWhile_prefix _).length_le

theorem terminated_length {m : List Byte} (h : Terminated m) : (text m).length < m.length := by
  induction m with
  | nil => cases h
  | cons c m ih =>
    by_cases hc : c = 0#8
    · subst hc; simp [text_zero]
    · rw [text_cons hc]
      have : Terminated m := by rcases List.mem_cons.mp h with h | h; exact absurd h.symm hc; exact h
      simp [ih this]

theorem not_terminated_text {m : List Byte} (h : ¬Terminated m) : text m = m := by
  apply text_of_noNul
  intro c hc hz
  subst hz
  exact h hc

theorem terminated_iff (m : List Byte) : Terminated m ↔ (text m).length < m.length := by
  constructor
  · exact terminated_length
  · intro h
    by_cases ht : Terminated m
    · exact ht
    · rw [not_terminated_text ht] at h; omega

theorem readable_tail {n : Nat} {c : Byte} {m : List Byte} (hc : c ≠ 0#8) (h : Readable (n + 1) (c :: m)) : Readable n m := by
  rcases h with h | h
  · left; simpa using h
  · right; rcases List.mem_cons.mp h with h | h; exact absurd h.symm hc; exact h

theorem terminated_readable {m : List Byte} (h : Terminated m) (n : Nat) : Readable n m := Or.inr h

theorem not_readable_nil (n : Nat) : ¬Readable (n + 1) [] := by
  rintro (h | h)
  · simp at h
  · cases h

theorem cstr_iff (m s : List Byte) : cstr m = .ok s ↔ Terminated m ∧ text m = s := by
  rcases cstring_cases m with h | ⟨t, r, rfl, h⟩
  · rw [cstr_noNul m h]
    constructor
    · intro e; cases e
    · rintro ⟨ht, -⟩; exact absurd rfl (h _ ht)
  · rw [cstr_eq t r h, text_append_zero t r h]
    constructor
    · intro e; cases e; exact ⟨by simp [Terminated], rfl⟩
    · rintro ⟨-, rfl⟩; rfl

theorem cstr_text {m : List Byte} (h : Terminated m) : cstr m = .ok (text m) := (cstr_iff m _).mpr ⟨h, rfl⟩

theorem strncpyBytes_text (n : Nat) (m : List Byte) (h : Readable n m) :
    strncpyBytes n m = .ok ((text m).take n ++ List.replicate (n - (text m).length) 0#8) := by
  induction m generalizing n with
  | nil =>
    cases n with
    | zero => rfl
    | succ n => exact absurd h (not_readable_nil n)
  | cons c m ih =>
    cases n with
    | zero => simp [strncpyBytes]
    | succ n =>
      by_cases hc : c = 0#8
      · subst hc; simp [strncpyBytes, text_zero]
      · rw [text_cons hc, strncpyBytes, if_neg hc, ih n (readable_tail hc h)]
        simp [bind, Except.bind]

theorem strncpyBytes_fault (n : Nat) (m : List Byte) (h : ¬Readable n m) : strncpyBytes n m = .error .oobRead := by
  induction m generalizing n with
  | nil =>
    cases n with
    | zero => exact absurd (Or.inl (Nat.le_refl 0)) h
    | succ n => rfl
  | cons c m ih =>
    cases n with
    | zero => exact absurd (Or.inl (Nat.zero_le _)) h
    | succ n =>
      by_cases hc : c = 0#8
      · subst hc; exact absurd (Or.inr (List.mem_cons_self ..)) h
      · rw [strncpyBytes, if_neg hc, ih n ?_]
        · rfl
        · rintro (hr | hr)
          · exact h (Or.inl (by simpa using hr))
          · exact h (Or.inr (List.mem_cons_of_mem _ hr))

theorem strncpy_text (dst src : List Byte) (n : Nat) (h : Readable n src) (hn : n ≤ dst.length) :
    strncpy dst src n = .ok ((text src).take n ++ List.replicate (n - (text src).length) 0#8 ++ dst.drop n) := by
  have hl : ((text src).take n ++ List.replicate (n - (text src).length) (0#8 : Byte)).length = n := by simp; omega
  simp only [strncpy, strncpyBytes_text n src h, bind, Except.bind]
  rw [poke_eq _ _ (by omega), hl]

theorem strncmpEq_text (n : Nat) (a b : List Byte) (ha : Readable n a) (hb : Readable n b) :
    strncmpEq n a b = .ok (decide ((text a).take n = (text b).take n)) := by
  induction n generalizing a b with
  | zero => simp [strncmpEq]
  | succ n ih =>
    cases a with
    | nil => exact absurd ha (not_readable_nil n)
    | cons x a =>
      cases b with
      | nil => exact absurd hb (not_readable_nil n)
      | cons y b =>
        by_cases hxy : x = y
        · subst hxy
          by_cases hx : x = 0#8
          · subst hx; simp [strncmpEq, text_zero]
          · simp only [strncmpEq, ne_eq, not_true_eq_false, if_false, if_neg hx]
            rw [ih a b (readable_tail hx ha) (readable_tail hx hb), text_cons hx, text_cons hx, List.take_succ_cons, List.take_succ_cons]
            simp
        · simp only [strncmpEq, ne_eq, hxy, not_false_eq_true, if_true]
          congr 1
          symm
          rw [decide_eq_false_iff_not]
          by_cases hx : x = 0#8
          · subst hx
            rw [text_zero, text_cons (fun h => hxy h.symm)]
            simp
          · by_cases hy : y = 0#8
            · subst hy
              rw [text_zero, text_cons hx]
              simp
            · rw [text_cons hx, text_cons hy]
              simp [hxy]

end RR32
