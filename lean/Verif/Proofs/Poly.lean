import Verif.Spec.Poly
import Verif.Model.Crc
import Mathlib.RingTheory.AdjoinRoot
import Mathlib.Tactic.LinearCombination
import Mathlib.Tactic.ComputeDegree

/-! # The shift register computes modulo the generator -/

set_option autoImplicit false

namespace RR32

open Spec Polynomial

theorem two_eq_zero' : (2 : (ZMod 2)[X]) = 0 := by
  have : (2 : ZMod 2) = 0 := rfl
  rw [← C_ofNat (R := ZMod 2), this, C_0]

theorem add_self_poly (p : (ZMod 2)[X]) : p + p = 0 := by
  rw [← two_mul, two_eq_zero', zero_mul]

theorem bitsPoly_append (a b : List Bool) : bitsPoly (a ++ b) = bitsPoly a * X ^ b.length + bitsPoly b := by
  induction a with
  | nil => simp [bitsPoly]
  | cons x a ih =>
    simp only [List.cons_append, bitsPoly, ih, List.length_append, pow_add]
    split <;> ring

theorem bitsPoly_xor (a b : List Bool) (h : a.length = b.length) :
    bitsPoly (List.zipWith xor a b) = bitsPoly a + bitsPoly b := by
  induction a generalizing b with
  | nil => cases b with
    | nil => simp [bitsPoly]
    | cons y b => simp at h
  | cons x a ih => cases b with
    | nil => simp at h
    | cons y b =>
      have hl : a.length = b.length := by simpa using h
      have e := ih b hl
      simp only [List.zipWith_cons_cons, bitsPoly, e, List.length_zipWith, ← hl, Nat.min_self]
      cases x <;> cases y <;> simp
      · ring
      · ring
      · linear_combination (-1 : (ZMod 2)[X]) * add_self_poly (X ^ a.length)

theorem bitsPoly_degree (a : List Bool) : (bitsPoly a).degree < a.length := by
  induction a with
  | nil => simp [bitsPoly]
  | cons x a ih =>
    rw [bitsPoly]
    refine lt_of_le_of_lt (degree_add_le _ _) (max_lt ?_ ?_)
    · split
      · rw [degree_X_pow]; exact_mod_cast Nat.lt_succ_self _
      · rw [degree_zero]; exact bot_lt_iff_ne_bot.mpr (by simp)
    · refine lt_trans ih ?_
      exact_mod_cast Nat.lt_succ_self _

theorem bitsPoly_eq_zero (a : List Bool) (h : bitsPoly a = 0) : a = List.replicate a.length false := by
  induction a with
  | nil => rfl
  | cons x a ih =>
    rw [bitsPoly] at h
    cases x with
    | false =>
      rw [List.length_cons, List.replicate_succ, ← ih (by simpa using h)]
    | true =>
      exfalso
      have h1 : (X : (ZMod 2)[X]) ^ a.length = - bitsPoly a := by
        linear_combination (by simpa using h : (X : (ZMod 2)[X]) ^ a.length + bitsPoly a = 0)
      have h2 := bitsPoly_degree a
      rw [← degree_neg, ← h1, degree_X_pow] at h2
      exact lt_irrefl _ h2

theorem bitsPoly_inj (a b : List Bool) (h : a.length = b.length) (e : bitsPoly a = bitsPoly b) : a = b := by
  have h0 : bitsPoly (List.zipWith xor a b) = 0 := by rw [bitsPoly_xor a b h, e, add_self_poly]
  have hr := bitsPoly_eq_zero _ h0
  refine List.ext_getElem h ?_
  intro i h1 h2
  have := congrArg (fun l : List Bool => l[i]?) hr
  simp [h1, h2] at this
  exact this

theorem generator_monic : generator.Monic := by
  unfold generator
  monicity!

theorem generator_natDegree : generator.natDegree = 16 := by
  unfold generator
  compute_degree!

theorem generator_degree : generator.degree = 16 := by
  rw [degree_eq_natDegree generator_monic.ne_zero, generator_natDegree]; rfl

/-- The ring of remainders. -/
noncomputable abbrev Rem := AdjoinRoot generator

/-- A word as a remainder. -/
noncomputable def rem (bs : List Bool) : Rem := AdjoinRoot.mk generator (bitsPoly bs)

/-- The class of x. -/
noncomputable def xr : Rem := AdjoinRoot.mk generator X

theorem xr_gen : xr ^ 16 + xr ^ 12 + xr ^ 5 + 1 = 0 := by
  have h : AdjoinRoot.mk generator (X ^ 16 + X ^ 12 + X ^ 5 + 1) = 0 := AdjoinRoot.mk_self
  rw [map_add, map_add, map_add, map_pow, map_pow, map_pow, map_one] at h
  exact h

theorem rem_add_self (r : Rem) : r + r = 0 := by
  obtain ⟨p, rfl⟩ := AdjoinRoot.mk_surjective r
  rw [← map_add, add_self_poly, map_zero]

theorem rem_append (a b : List Bool) : rem (a ++ b) = rem a * xr ^ b.length + rem b := by
  simp [rem, xr, bitsPoly_append]

theorem rem_xor (a b : List Bool) (h : a.length = b.length) : rem (List.zipWith xor a b) = rem a + rem b := by
  simp [rem, bitsPoly_xor a b h]

theorem rem_eq_iff (a b : List Bool) (h : a.length = b.length) : rem a = rem b ↔ generator ∣ bitsPoly (List.zipWith xor a b) := by
  rw [← AdjoinRoot.mk_eq_zero]
  show _ ↔ rem _ = 0
  rw [rem_xor a b h]
  constructor
  · intro e; rw [e, rem_add_self]
  · intro e
    linear_combination e - rem_add_self (rem b)

theorem rem_inj (a b : List Bool) (h : a.length = b.length) (hl : a.length ≤ 16) (e : rem a = rem b) : a = b := by
  rw [rem_eq_iff a b h] at e
  have hd := bitsPoly_degree (List.zipWith xor a b)
  have hz : bitsPoly (List.zipWith xor a b) = 0 := by
    by_contra hne
    refine generator_monic.not_dvd_of_degree_lt hne (lt_of_lt_of_le hd ?_) e
    rw [generator_degree, List.length_zipWith, ← h, Nat.min_self]
    exact_mod_cast hl
  rw [bitsPoly_xor a b h] at hz
  refine bitsPoly_inj a b h ?_
  linear_combination hz - add_self_poly (bitsPoly b)

/-! ## Words -/

theorem msbBits_length {n : Nat} (v : BitVec n) : (msbBits v).length = n := by simp [msbBits]

theorem msbBits_xor {n : Nat} (a b : BitVec n) : msbBits (a ^^^ b) = List.zipWith xor (msbBits a) (msbBits b) := by
  refine List.ext_getElem (by simp [msbBits]) ?_
  intro i h1 h2
  simp [msbBits]

theorem msbBits_inj {n : Nat} (a b : BitVec n) (h : msbBits a = msbBits b) : a = b := by
  refine BitVec.eq_of_getMsbD_eq ?_
  intro i hi
  have := congrArg (fun l : List Bool => l[i]?) h
  simpa [msbBits, hi] using this

theorem msbBits_shl (a : U16) : msbBits a ++ [false] = a.msb :: msbBits (a <<< 1) := by
  refine List.ext_getElem (by simp [msbBits]) ?_
  intro i h1 h2
  simp only [msbBits, List.length_append, List.length_map, List.length_range, List.length_cons, List.length_nil] at h1
  rcases Nat.eq_zero_or_pos i with h0 | h0
  · subst h0
    simp [msbBits, BitVec.msb]
  · obtain ⟨j, rfl⟩ : ∃ j, i = j + 1 := ⟨i - 1, by omega⟩
    by_cases hj : j + 1 < 16
    · simp [msbBits, hj]
    · have : j = 15 := by omega
      subst this
      simp [msbBits]

/-- A word as a remainder. -/
noncomputable def remW {n : Nat} (v : BitVec n) : Rem := rem (msbBits v)

theorem remW_xor {n : Nat} (a b : BitVec n) : remW (a ^^^ b) = remW a + remW b := by
  rw [remW, msbBits_xor, rem_xor _ _ (by simp [msbBits_length])]; rfl

theorem remW_inj (a b : U16) (h : remW a = remW b) : a = b :=
  msbBits_inj _ _ (rem_inj _ _ (by simp [msbBits_length]) (by simp [msbBits_length]) h)

theorem top_bit (a : U16) : (a &&& 0x8000#16) ≠ 0#16 ↔ a.msb = true := by
  have e : (0x8000#16 : U16) = BitVec.twoPow 16 15 := by decide
  rw [e, BitVec.and_twoPow, BitVec.msb_eq_getLsbD_last]
  by_cases h : a.getLsbD 15 = true
  · simp [h]
  · simp at h
    simp [h]

theorem remW_polynomial : remW Crc.polynomial = xr ^ 16 := by
  have e : msbBits Crc.polynomial = [false, false, false, true, false, false, false, false, false, false, true, false, false, false,
    false, true] := by decide
  have h : remW Crc.polynomial = xr ^ 12 + xr ^ 5 + 1 := by
    rw [remW, e, rem]
    simp [bitsPoly, xr, add_assoc]
  rw [h]
  linear_combination xr_gen - rem_add_self (xr ^ 16)

/-- One turn of the loop multiplies by x. -/
theorem remW_shiftBit (a : U16) : remW (Crc.shiftBit a) = xr * remW a := by
  have h : xr * remW a = (if a.msb then xr ^ 16 else 0) + remW (a <<< 1) := by
    have e := congrArg rem (msbBits_shl a)
    rw [rem_append] at e
    have e2 : rem [false] = 0 := by simp [rem, bitsPoly]
    have e3 : rem (a.msb :: msbBits (a <<< 1)) = (if a.msb then xr ^ 16 else 0) + remW (a <<< 1) := by
      unfold remW rem
      rw [bitsPoly, msbBits_length, map_add]
      split <;> simp [xr]
    rw [e2, e3, add_zero, List.length_singleton, pow_one] at e
    rw [← e, mul_comm]; rfl
  rw [h, Crc.shiftBit]
  by_cases ht : a.msb = true
  · rw [if_pos ((top_bit a).mpr ht), if_pos ht, remW_xor, remW_polynomial, add_comm]
  · rw [if_neg (fun hh => ht ((top_bit a).mp hh)), if_neg ht, zero_add]

theorem remW_shiftLoop (n : Nat) (a : U16) : remW (Crc.shiftLoop n a) = xr ^ n * remW a := by
  induction n generalizing a with
  | zero => simp [Crc.shiftLoop]
  | succ n ih => rw [Crc.shiftLoop, ih, remW_shiftBit]; ring

theorem msbBits_byte (x : Byte) : msbBits (x.zeroExtend 16 <<< 8) = msbBits x ++ List.replicate 8 false := by
  refine List.ext_getElem (by simp [msbBits]) ?_
  intro i h1 h2
  simp only [msbBits, List.length_map, List.length_range] at h1
  by_cases hi : i < 8
  · simp [msbBits, hi, BitVec.getMsbD_setWidth]
  · rw [List.getElem_append_right (by rw [msbBits_length]; omega), List.getElem_replicate]
    simp [msbBits, BitVec.getMsbD_setWidth]
    exact BitVec.getMsbD_of_ge _ _ (by omega)

theorem rem_zeros (n : Nat) : rem (List.replicate n false) = 0 := by
  induction n with
  | zero => simp [rem, bitsPoly]
  | succ n ih =>
    rw [List.replicate_succ]
    simp only [rem, bitsPoly] at *
    simpa using ih

theorem remW_byte (x : Byte) : remW (x.zeroExtend 16 <<< 8) = remW x * xr ^ 8 := by
  rw [remW, msbBits_byte, rem_append, rem_zeros, List.length_replicate, add_zero]; rfl

theorem remW_update (c : Crc) (x : Byte) :
    remW (c.updateCrc x).accumulator = remW c.accumulator * xr ^ 8 + remW x * xr ^ 16 := by
  rw [Crc.updateCrc, remW_shiftLoop, remW_xor, remW_byte]
  ring

theorem messageBits_length (m : List Byte) : (messageBits m).length = 8 * m.length := by
  induction m with
  | nil => rfl
  | cons y m ih => simp only [messageBits, List.flatMap_cons, List.length_append, msbBits_length, List.length_cons] at *; omega

/-- A message through the shift register. -/
theorem remW_message (m : List Byte) (c : Crc) :
    remW (m.foldl Crc.updateCrc c).accumulator =
      remW c.accumulator * xr ^ (8 * m.length) + rem (messageBits m) * xr ^ 16 := by
  induction m generalizing c with
  | nil => simp [messageBits, rem, bitsPoly]
  | cons x m ih =>
    rw [List.foldl_cons, ih, remW_update]
    have e : rem (messageBits (x :: m)) = remW x * xr ^ (8 * m.length) + rem (messageBits m) := by
      rw [messageBits, List.flatMap_cons, rem_append]
      rw [show (List.flatMap msbBits m).length = 8 * m.length from messageBits_length m]
      rfl
    rw [e, List.length_cons, Nat.mul_add, pow_add]
    ring

theorem reference_message (m : List Byte) (c : Crc) : (m.foldl Crc.updateCrc c).reference = c.reference := by
  induction m generalizing c with
  | nil => rfl
  | cons x m ih => rw [List.foldl_cons, ih]; rfl

/-! ## x is invertible modulo the generator -/

theorem xr_inv : xr * (xr ^ 15 + xr ^ 11 + xr ^ 4) = 1 := by
  linear_combination xr_gen - rem_add_self 1

theorem xr_pow_cancel (n : Nat) (r s : Rem) (h : r * xr ^ n = s * xr ^ n) : r = s := by
  have e : xr ^ n * (xr ^ 15 + xr ^ 11 + xr ^ 4) ^ n = 1 := by rw [← mul_pow, xr_inv, one_pow]
  have := congrArg (fun t => t * (xr ^ 15 + xr ^ 11 + xr ^ 4) ^ n) h
  simp only [mul_assoc, e, mul_one] at this
  exact this

/-! ## Multiplication modulo the generator, to compute powers of x -/

/-- Multiplication of remainders, bit by bit. -/
def mulMod (a : U16) (bits : List Bool) : U16 :=
  bits.foldl (fun acc b => Crc.shiftBit acc ^^^ (if b then a else 0#16)) 0#16

theorem remW_zero : remW (0#16 : U16) = 0 := by
  have e : msbBits (0#16 : U16) = List.replicate 16 false := by decide
  rw [remW, e, rem_zeros]

theorem remW_mulMod (a : U16) (bits : List Bool) : remW (mulMod a bits) = remW a * rem bits := by
  have h : ∀ acc, remW (bits.foldl (fun acc b => Crc.shiftBit acc ^^^ (if b then a else 0#16)) acc) =
      remW acc * xr ^ bits.length + remW a * rem bits := by
    induction bits with
    | nil => intro acc; simp [rem, bitsPoly]
    | cons b bits ih =>
      intro acc
      rw [List.foldl_cons, ih, remW_xor, remW_shiftBit]
      have e : rem (b :: bits) = (if b then xr ^ bits.length else 0) + rem bits := by
        unfold rem
        rw [bitsPoly, map_add]
        split <;> simp [xr]
      rw [e, List.length_cons, pow_succ]
      cases b
      · simp [remW_zero]; ring
      · simp; ring
  rw [mulMod, h, remW_zero, zero_mul, zero_add]

end RR32
