import Mathlib.Tactic.IntervalCases

/-! # Tools for bit vectors -/

set_option autoImplicit false

namespace RR32

/-- Prove an equation of bit vectors bit by bit. -/
macro "bits" : tactic =>
  `(tactic| (apply BitVec.eq_of_getLsbD_eq; intro i hi; interval_cases i <;> simp))

theorem toNat_or_disjoint {w : Nat} (x y : BitVec w) (h : x &&& y = 0#w) : (x ||| y).toNat = x.toNat + y.toNat := by
  rw [← BitVec.add_eq_or_of_and_eq_zero x y h, BitVec.toNat_add_of_and_eq_zero h]

theorem toNat_mask {w : Nat} (x : BitVec w) (n : Nat) (m : BitVec w) (hm : m.toNat = 2 ^ n - 1) :
    (x &&& m).toNat = x.toNat % 2 ^ n := by
  rw [BitVec.toNat_and, hm, Nat.and_two_pow_sub_one_eq_mod]

theorem toNat_shr {w : Nat} (x : BitVec w) (n : Nat) : (x >>> n).toNat = x.toNat / 2 ^ n := by
  rw [BitVec.toNat_ushiftRight, Nat.shiftRight_eq_div_pow]

theorem toNat_shl {w : Nat} (x : BitVec w) (n : Nat) : (x <<< n).toNat = x.toNat * 2 ^ n % 2 ^ w := by
  rw [BitVec.toNat_shiftLeft, Nat.shiftLeft_eq]

theorem toNat_or_low {w : Nat} (x y : BitVec w) (k q : Nat) (hx : x.toNat < 2 ^ k) (hy : y.toNat = 2 ^ k * q) :
    (x ||| y).toNat = x.toNat + y.toNat := by
  rw [BitVec.toNat_or, hy, Nat.or_comm, ← Nat.two_pow_add_eq_or_of_lt hx]
  omega

end RR32
