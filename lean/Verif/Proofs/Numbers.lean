import Verif.Proofs.Decimal
import Verif.Proofs.Strings
import Verif.Spec.Numbers

/-! # `strtoul` and `strtol` on numerals -/

set_option autoImplicit false

namespace RR32

open Spec

theorem isDigit_val {d : Nat} {c : Byte} (hd : d < 16) (h : IsDigit d c) : digitVal c = some d := by
  have key : ∀ d : Fin 16, digitVal (ch (Nat.digitChar d.1)) = some d.1 ∧ digitVal (ch (Nat.digitChar d.1).toUpper) = some d.1 := by decide
  rcases h with rfl | rfl
  · exact (key ⟨d, hd⟩).1
  · exact (key ⟨d, hd⟩).2

theorem isDigit_plain {d : Nat} {c : Byte} (hd : d < 16) (h : IsDigit d c) :
    isSpace c = false ∧ c ≠ ch '-' ∧ c ≠ ch '+' ∧ c ≠ ch 'x' ∧ c ≠ ch 'X' ∧ c ≠ 0#8 := by
  have key : ∀ d : Fin 16, ∀ c, c = ch (Nat.digitChar d.1) ∨ c = ch (Nat.digitChar d.1).toUpper →
      isSpace c = false ∧ c ≠ ch '-' ∧ c ≠ ch '+' ∧ c ≠ ch 'x' ∧ c ≠ ch 'X' ∧ c ≠ 0#8 := by
    have k1 : ∀ d : Fin 16, isSpace (ch (Nat.digitChar d.1)) = false ∧ ch (Nat.digitChar d.1) ≠ ch '-' ∧ ch (Nat.digitChar d.1) ≠ ch '+' ∧
        ch (Nat.digitChar d.1) ≠ ch 'x' ∧ ch (Nat.digitChar d.1) ≠ ch 'X' ∧ ch (Nat.digitChar d.1) ≠ 0#8 := by decide
    have k2 : ∀ d : Fin 16, isSpace (ch (Nat.digitChar d.1).toUpper) = false ∧ ch (Nat.digitChar d.1).toUpper ≠ ch '-' ∧
        ch (Nat.digitChar d.1).toUpper ≠ ch '+' ∧ ch (Nat.digitChar d.1).toUpper ≠ ch 'x' ∧ ch (Nat.digitChar d.1).toUpper ≠ ch 'X' ∧
        ch (Nat.digitChar d.1).toUpper ≠ 0#8 := by decide
    rintro d c (rfl | rfl)
    · exact k1 d
    · exact k2 d
  exact key ⟨d, hd⟩ c h

theorem numeral_digit {base : Nat} (hb : base ≤ 16) {l : List Byte} {n : Nat} (h : Numeral base l n) :
    ∀ c ∈ l, ∃ d, d < 16 ∧ IsDigit d c := by
  induction h with
  | nil => intro c hc; cases hc
  | snoc _ hd hc ih =>
    intro c' hc'
    rcases List.mem_append.mp hc' with h | h
    · exact ih c' h
    · rw [List.mem_singleton.mp h]; exact ⟨_, by omega, hc⟩

theorem numeral_noNul {base : Nat} (hb : base ≤ 16) {l : List Byte} {n : Nat} (h : Numeral base l n) : NoNul l := by
  intro c hc
  obtain ⟨d, hd, hi⟩ := numeral_digit hb h c hc
  exact (isDigit_plain hd hi).2.2.2.2.2

theorem digits_numeral {base : Nat} (hb : base ≤ 16) {l : List Byte} {n : Nat} (h : Numeral base l n) (rest : List Byte) (acc : Nat) :
    digits base acc (l ++ rest) = digits base (acc * base ^ l.length + n) rest := by
  induction h generalizing rest with
  | nil => simp
  | @snoc l n d c _ hd hc ih =>
    rw [List.append_assoc, ih, List.singleton_append, digits, isDigit_val (by omega) hc]
    simp only [hd, if_true]
    congr 1
    rw [List.length_append, List.length_singleton, Nat.pow_succ, Nat.add_mul, Nat.mul_assoc, Nat.add_assoc]

theorem digits_stop (base acc : Nat) (r : List Byte) : digits base acc (0#8 :: r) = .ok acc := rfl

theorem skipSpace_plain (c : Byte) (r : List Byte) (h : isSpace c = false) : skipSpace (c :: r) = .ok (c :: r) := by
  simp [skipSpace, h]

theorem takeSign_plain (c : Byte) (r : List Byte) (h1 : c ≠ ch '-') (h2 : c ≠ ch '+') : takeSign (c :: r) = .ok (false, c :: r) := by
  simp [takeSign, h1, h2]

theorem takeHexPrefix_plain (c d : Byte) (r : List Byte) (h1 : d ≠ ch 'x') (h2 : d ≠ ch 'X') :
    takeHexPrefix (c :: d :: r) = .ok (c :: d :: r) := by
  by_cases hc : c = ch '0'
  · simp [takeHexPrefix, hc, h1, h2]
  · simp [takeHexPrefix, hc]

theorem split_text {m : List Byte} (h : Terminated m) : ∃ r, m = text m ++ 0#8 :: r := by
  rcases cstring_cases m with hn | ⟨s, r, rfl, hs⟩
  · exact absurd rfl (hn _ h)
  · exact ⟨r, by rw [text_append_zero s r hs]⟩

/-- `strtoul(m, NULL, 16)` on a hexadecimal numeral with or without prefix. -/
theorem strtoul16_numeral (pf : Platform) (m pre l : List Byte) (v : Nat) (ht : Terminated m) (hm : text m = pre ++ l)
    (hp : IsHexPrefix pre) (hl : Numeral 16 l v) (hne : l ≠ []) :
    strtoul16 pf m = .ok (if 2 ^ pf.longBits ≤ v then 2 ^ pf.longBits - 1 else v) := by
  obtain ⟨r, hr⟩ := split_text ht
  rw [hm] at hr
  cases l with
  | nil => exact absurd rfl hne
  | cons c l =>
    obtain ⟨d, hd, hc⟩ := numeral_digit (Nat.le_refl 16) hl c (List.mem_cons_self ..)
    obtain ⟨p1, p2, p3, p4, p5, p6⟩ := isDigit_plain hd hc
    have hdig : digits 16 0 (c :: l ++ 0#8 :: r) = .ok v := by
      rw [digits_numeral (Nat.le_refl 16) hl, digits_stop]; simp
    have hx : ∀ x, x = ch 'x' ∨ x = ch 'X' →
        strtoul16 pf (ch '0' :: x :: (c :: l ++ 0#8 :: r)) = .ok (if 2 ^ pf.longBits ≤ v then 2 ^ pf.longBits - 1 else v) := by
      intro x hx
      have t : takeHexPrefix (ch '0' :: x :: (c :: l ++ 0#8 :: r)) = .ok (c :: l ++ 0#8 :: r) := by
        unfold takeHexPrefix
        simp only [if_true, hx, List.cons_append]
        rw [isDigit_val hd hc]
        simp only [hd, if_true]
      simp only [strtoul16, bind, Except.bind]
      rw [skipSpace_plain _ _ (by decide)]
      simp only
      rw [takeSign_plain _ _ (by decide) (by decide)]
      simp only
      rw [t]
      simp only
      rw [hdig]
      simp
    rcases hp with rfl | rfl | rfl
    · have t : takeHexPrefix (c :: l ++ 0#8 :: r) = .ok (c :: l ++ 0#8 :: r) := by
        cases l with
        | nil => exact takeHexPrefix_plain c 0#8 r (by decide) (by decide)
        | cons c' l =>
          obtain ⟨d', hd', hc'⟩ := numeral_digit (Nat.le_refl 16) hl c' (by simp)
          obtain ⟨-, -, -, q4, q5, -⟩ := isDigit_plain hd' hc'
          exact takeHexPrefix_plain c c' _ q4 q5
      rw [hr]
      simp only [List.nil_append, List.cons_append] at *
      simp only [strtoul16, bind, Except.bind]
      rw [skipSpace_plain _ _ p1]
      simp only
      rw [takeSign_plain _ _ p2 p3]
      simp only
      rw [t]
      simp only
      rw [hdig]
      simp
    · rw [hr]; exact hx _ (Or.inl rfl)
    · rw [hr]; exact hx _ (Or.inr rfl)

/-- `strtol(m, NULL, 10)` on a decimal numeral. -/
theorem strtol10_numeral (pf : Platform) (m l : List Byte) (v : Nat) (ht : Terminated m) (hm : text m = l)
    (hl : Numeral 10 l v) (hne : l ≠ []) :
    strtol10 pf m = .ok (if 2 ^ (pf.longBits - 1) ≤ v then (((2 : Nat) ^ (pf.longBits - 1) : Nat) : Int) - 1 else (v : Int)) := by
  obtain ⟨r, hr⟩ := split_text ht
  rw [hm] at hr
  cases l with
  | nil => exact absurd rfl hne
  | cons c l =>
    obtain ⟨d, hd, hc⟩ := numeral_digit (by decide) hl c (List.mem_cons_self ..)
    obtain ⟨p1, p2, p3, -⟩ := isDigit_plain hd hc
    have hdig : digits 10 0 (c :: l ++ 0#8 :: r) = .ok v := by
      rw [digits_numeral (by decide) hl, digits_stop]; simp
    rw [hr]
    simp only [List.cons_append] at *
    simp only [strtol10, bind, Except.bind]
    rw [skipSpace_plain _ _ p1]
    simp only
    rw [takeSign_plain _ _ p2 p3]
    simp only
    rw [hdig]
    simp

/-- Lean's own digits are numerals. -/
theorem numeral_toDigits (base : Nat) (hb : 1 < base) (n : Nat) : Numeral base ((Nat.toDigits base n).map ch) n := by
  induction n using Nat.strongRecOn with
  | ind n ih =>
    rw [Nat.toDigits_eq_if hb]
    split
    · next h =>
      have := Numeral.snoc (base := base) .nil h (Or.inl rfl)
      simpa using this
    · next h =>
      have := Numeral.snoc (base := base) (ih (n / base) (Nat.div_lt_self (by omega) hb)) (Nat.mod_lt n (by omega)) (Or.inl rfl)
      rw [Nat.mul_comm, Nat.div_add_mod] at this
      simpa using this

theorem toDigits_ne (base : Nat) (n : Nat) : (Nat.toDigits base n).map ch ≠ [] := by
  intro h
  have : 0 < (Nat.toDigits base n).length := Nat.length_toDigits_pos
  rw [List.map_eq_nil_iff] at h
  rw [h] at this
  exact absurd this (by decide)

end RR32
