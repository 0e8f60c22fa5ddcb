import Verif.Proofs.CLib

/-! # Decimal text -/

set_option autoImplicit false

namespace RR32

theorem ch_digitChar (d : Nat) (h : d < 10) : ch (Nat.digitChar d) = BitVec.ofNat 8 (0x30 + d) := by
  match d, h with
  | 0, _ | 1, _ | 2, _ | 3, _ | 4, _ | 5, _ | 6, _ | 7, _ | 8, _ | 9, _ => decide

/-- The model's decimal digits are those of Lean's number printer. -/
theorem decText_eq (n : Nat) : decText n = (Nat.toDigits 10 n).map ch := by
  induction n using Nat.strongRecOn with
  | ind n ih =>
    rw [decText, Nat.toDigits_eq_if (by decide)]
    split
    · next h => simp [ch_digitChar n h]
    · next h =>
      rw [ih (n / 10) (by omega), List.map_append, List.map_singleton, ch_digitChar _ (Nat.mod_lt _ (by decide))]

theorem decText_str (n : Nat) : decText n = str (toString n) := by
  rw [decText_eq, str, Nat.toString_eq_repr, Nat.toList_repr]

theorem decText_length_le (n k : Nat) (hk : 0 < k) (h : n < 10 ^ k) : (decText n).length ≤ k := by
  rw [decText_eq, List.length_map]
  exact (Nat.length_toDigits_le_iff (by decide) hk).mpr h

theorem decText_length_pos (n : Nat) : 0 < (decText n).length := by
  rw [decText_eq, List.length_map]
  exact Nat.length_toDigits_pos

end RR32
