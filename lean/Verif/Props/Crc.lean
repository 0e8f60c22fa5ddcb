import Verif.Proofs.Poly
import Mathlib.GroupTheory.OrderOfElement
import Mathlib.Tactic.NormNum.Prime
import Mathlib.Algebra.BigOperators.Fin

/-! # C29 to C32: the checksum -/

set_option autoImplicit false

namespace RR32

open Spec Polynomial

/-- The accumulator after a message, starting from any checksum object. -/
def crcFrom (c : Crc) (m : List Byte) : U16 := (m.foldl Crc.updateCrc c).accumulator

/-- The checksum of a message: `reset`, then `updateCrc` for each byte. -/
def crcOf (m : List Byte) : U16 := crcFrom Crc.reset m

/-- C29. The accumulator after a message is the remainder of polynomial division. -/
theorem C29_crc (m : List Byte) : bitsPoly (msbBits (crcOf m)) = crcPoly m := by
  have h := remW_message m Crc.reset
  have e : msbBits Crc.reset.accumulator = List.replicate 16 true := by decide
  have hd : generator ∣ bitsPoly (msbBits (crcOf m)) -
      (bitsPoly (messageBits m) * X ^ 16 + bitsPoly (List.replicate 16 true) * X ^ (8 * m.length)) := by
    rw [← AdjoinRoot.mk_eq_zero, map_sub, sub_eq_zero]
    refine Eq.trans (show _ = remW (crcOf m) from rfl) (Eq.trans h ?_)
    rw [remW, e, map_add, map_mul, map_mul, map_pow, map_pow, add_comm]
    rfl
  rw [crcPoly, ← modByMonic_eq_of_dvd_sub generator_monic hd, eq_comm, modByMonic_eq_self_iff generator_monic, generator_degree]
  have := bitsPoly_degree (msbBits (crcOf m))
  rw [msbBits_length] at this
  exact_mod_cast this

/-- C29. The comparison is with the loaded reference, which messages do not change. -/
theorem C29_valid (m : List Byte) (c : Crc) (r : U16) :
    (m.foldl Crc.updateCrc (c.loadReference r)).isCrcValid = true ↔ crcFrom c m = r := by
  have h : (m.foldl Crc.updateCrc (c.loadReference r)).accumulator = crcFrom c m := by
    refine remW_inj _ _ ?_
    rw [crcFrom, remW_message, remW_message]; rfl
  rw [Crc.isCrcValid, beq_iff_eq, h, reference_message]; rfl

/-- C29. What the getters return: the checksum of the message, and the reference that was loaded before it. -/
theorem C29_getters (m : List Byte) (r : U16) : bitsPoly (msbBits (m.foldl Crc.updateCrc (Crc.reset.loadReference r)).getCrc) = crcPoly m ∧
    (m.foldl Crc.updateCrc (Crc.reset.loadReference r)).getReference = r := by
  have h : (m.foldl Crc.updateCrc (Crc.reset.loadReference r)).accumulator = crcOf m := by
    refine remW_inj _ _ ?_
    rw [crcOf, crcFrom, remW_message, remW_message]; rfl
  refine ⟨?_, ?_⟩
  · rw [Crc.getCrc, h]; exact C29_crc m
  · rw [Crc.getReference, reference_message]; rfl

/-- Two messages have the same checksum exactly if the generator divides their difference. -/
theorem crc_eq_iff (c : Crc) (m m' : List Byte) (hl : m.length = m'.length) :
    crcFrom c m = crcFrom c m' ↔ generator ∣ bitsPoly (difference (messageBits m) (messageBits m')) := by
  have hb : (messageBits m).length = (messageBits m').length := by rw [messageBits_length, messageBits_length, hl]
  rw [difference, ← rem_eq_iff _ _ hb]
  constructor
  · intro h
    have h1 := congrArg remW h
    rw [crcFrom, crcFrom, remW_message, remW_message, hl] at h1
    exact xr_pow_cancel 16 _ _ (add_left_cancel h1)
  · intro h
    refine remW_inj _ _ ?_
    rw [crcFrom, crcFrom, remW_message, remW_message, hl, h]

/-- C30. Two messages that differ only inside a window of at most 16 bits have different checksums. -/
theorem C30_burst (c : Crc) (m m' : List Byte) (pre w w' post : List Bool) (hm : messageBits m = pre ++ w ++ post)
    (hm' : messageBits m' = pre ++ w' ++ post) (hw : w.length = w'.length) (h16 : w.length ≤ 16) (hne : w ≠ w') :
    crcFrom c m ≠ crcFrom c m' := by
  have hl : m.length = m'.length := by
    have h1 := congrArg List.length hm
    have h2 := congrArg List.length hm'
    simp only [messageBits_length, List.length_append] at h1 h2
    omega
  intro h
  have h1 := congrArg remW h
  rw [crcFrom, crcFrom, remW_message, remW_message, hl, hm, hm', rem_append, rem_append, rem_append, rem_append, hw] at h1
  have h2 := xr_pow_cancel 16 _ _ (add_left_cancel h1)
  have h3 := xr_pow_cancel _ _ _ (add_right_cancel h2)
  exact hne (rem_inj w w' hw h16 (add_left_cancel h3))

/-- C30. One byte changed. -/
theorem C30_byte (c : Crc) (a b : List Byte) (x x' : Byte) (h : x ≠ x') : crcFrom c (a ++ x :: b) ≠ crcFrom c (a ++ x' :: b) := by
  refine C30_burst c _ _ (messageBits a) (msbBits x) (msbBits x') (messageBits b) ?_ ?_ ?_ ?_ ?_
  · simp [messageBits]
  · simp [messageBits]
  · simp [msbBits_length]
  · simp [msbBits_length]
  · exact fun e => h (msbBits_inj _ _ e)

/-- C30. Two adjacent bytes changed. -/
theorem C30_bytes (c : Crc) (a b : List Byte) (x x' y y' : Byte) (h : (x, y) ≠ (x', y')) :
    crcFrom c (a ++ x :: y :: b) ≠ crcFrom c (a ++ x' :: y' :: b) := by
  refine C30_burst c _ _ (messageBits a) (msbBits x ++ msbBits y) (msbBits x' ++ msbBits y') (messageBits b) ?_ ?_ ?_ ?_ ?_
  · simp [messageBits]
  · simp [messageBits]
  · simp [msbBits_length]
  · simp [msbBits_length]
  · intro e
    obtain ⟨e1, e2⟩ := List.append_inj e (by simp [msbBits_length])
    exact h (by rw [msbBits_inj _ _ e1, msbBits_inj _ _ e2])

/-- Evaluating at 1 counts the bits. -/
theorem bitsPoly_eval (l : List Bool) : (bitsPoly l).eval 1 = (l.count true : ZMod 2) := by
  induction l with
  | nil => simp [bitsPoly]
  | cons b l ih =>
    rw [bitsPoly, eval_add, ih]
    cases b <;> simp [add_comm]

/-- C31. Two messages of equal length that differ in an odd number of bits have different checksums. -/
theorem C31_odd (c : Crc) (m m' : List Byte) (hl : m.length = m'.length)
    (hodd : (difference (messageBits m) (messageBits m')).count true % 2 = 1) : crcFrom c m ≠ crcFrom c m' := by
  intro h
  rw [crc_eq_iff c m m' hl] at h
  have he := eval_dvd (x := (1 : ZMod 2)) h
  have hg : generator.eval (1 : ZMod 2) = 0 := by
    simp only [generator, eval_add, eval_pow, eval_X, eval_one]
    decide
  rw [hg, zero_dvd_iff, bitsPoly_eval] at he
  have := (ZMod.natCast_eq_zero_iff _ 2).mp he
  omega

/-! ## The order of x -/

/-- Powers of x, the exponent in binary. -/
def powMod (bits : List Bool) : U16 :=
  bits.foldl (fun acc b => if b then Crc.shiftBit (mulMod acc (msbBits acc)) else mulMod acc (msbBits acc)) 1#16

theorem remW_powMod (bits : List Bool) : remW (powMod bits) = xr ^ (bits.foldl (fun n b => 2 * n + if b then 1 else 0) 0) := by
  have h : ∀ acc n, remW acc = xr ^ n →
      remW (bits.foldl (fun acc b => if b then Crc.shiftBit (mulMod acc (msbBits acc)) else mulMod acc (msbBits acc)) acc) =
        xr ^ (bits.foldl (fun n b => 2 * n + if b then 1 else 0) n) := by
    induction bits with
    | nil => intro acc n h; exact h
    | cons b bits ih =>
      intro acc n h
      rw [List.foldl_cons, List.foldl_cons]
      refine ih _ _ ?_
      have e : remW (mulMod acc (msbBits acc)) = xr ^ (2 * n) := by
        rw [remW_mulMod]
        show remW acc * remW acc = _
        rw [h, ← pow_add, two_mul]
      cases b
      · simpa using e
      · simp only [if_true]
        rw [remW_shiftBit, e, pow_succ, mul_comm]
  refine h _ _ ?_
  have e : msbBits (1#16 : U16) = List.replicate 15 false ++ [true] := by decide
  rw [remW, e, rem_append, rem_zeros]
  simp [rem, bitsPoly]

theorem remW_one : remW (1#16 : U16) = 1 := by simpa [powMod] using remW_powMod []

/-- The order of x modulo the generator is 32767. -/
theorem xr_order : orderOf xr = 32767 := by
  refine orderOf_eq_of_pow_and_pow_div_prime (by norm_num) ?_ ?_
  · have h := remW_powMod (List.replicate 15 true)
    have e : powMod (List.replicate 15 true) = 1#16 := by decide +kernel
    rw [e, remW_one] at h
    exact h.symm
  · intro p hp hd
    have hcases : p = 7 ∨ p = 31 ∨ p = 151 := by
      have h1 : p ∣ 7 * (31 * 151) := by simpa using hd
      rcases (Nat.Prime.dvd_mul hp).mp h1 with h | h
      · exact Or.inl ((Nat.prime_dvd_prime_iff_eq hp (by norm_num)).mp h)
      · rcases (Nat.Prime.dvd_mul hp).mp h with h | h
        · exact Or.inr (Or.inl ((Nat.prime_dvd_prime_iff_eq hp (by norm_num)).mp h))
        · exact Or.inr (Or.inr ((Nat.prime_dvd_prime_iff_eq hp (by norm_num)).mp h))
    have key : ∀ (n : Nat) (bits : List Bool), bits.foldl (fun n b => 2 * n + if b then 1 else 0) 0 = n → powMod bits ≠ 1#16 →
        xr ^ n ≠ 1 := by
      intro n bits hn hb h1
      refine hb (remW_inj _ _ ?_)
      rw [remW_powMod, hn, h1, remW_one]
    rcases hcases with h | h | h <;> subst h
    · exact key _ ((Nat.toDigits 2 4681).map (· == '1')) (by decide +kernel) (by decide +kernel)
    · exact key _ ((Nat.toDigits 2 1057).map (· == '1')) (by decide +kernel) (by decide +kernel)
    · exact key _ ((Nat.toDigits 2 217).map (· == '1')) (by decide +kernel) (by decide +kernel)

/-- Bits as a sum over positions. -/
theorem bitsPoly_sum (l : List Bool) :
    bitsPoly l = ∑ n ∈ Finset.range l.length, if l.getD n false then (X : (ZMod 2)[X]) ^ (l.length - 1 - n) else 0 := by
  induction l with
  | nil => simp [bitsPoly]
  | cons b l ih =>
    rw [bitsPoly, List.length_cons, Finset.sum_range_succ', ih, add_comm]
    congr 1
    refine Finset.sum_congr rfl ?_
    intro n hn
    simp only [Finset.mem_range] at hn
    simp only [List.getD_cons_succ]
    rw [show l.length + 1 - 1 - (n + 1) = l.length - 1 - n by omega]

/-- The difference of two messages that differ at exactly two positions. -/
theorem two_bits_rem (m m' : List Byte) (hl : m.length = m'.length) (i j : Nat) (hij : i < j)
    (hj : j < (messageBits m).length)
    (hd : ∀ n, n < (messageBits m).length → ((messageBits m)[n]? ≠ (messageBits m')[n]? ↔ n = i ∨ n = j)) :
    rem (messageBits m) + rem (messageBits m') = xr ^ ((messageBits m).length - 1 - j) * (xr ^ (j - i) + 1) := by
  have hb : (messageBits m).length = (messageBits m').length := by rw [messageBits_length, messageBits_length, hl]
  generalize messageBits m = a at *
  generalize messageBits m' = b at *
  rw [← rem_xor _ _ hb, rem, bitsPoly_sum]
  have hz : (List.zipWith xor a b).length = a.length := by rw [List.length_zipWith, ← hb, Nat.min_self]
  rw [hz, Finset.sum_congr rfl (g := fun n => (if n = i then (X : (ZMod 2)[X]) ^ (a.length - 1 - n) else 0) +
    (if n = j then X ^ (a.length - 1 - n) else 0))]
  · rw [Finset.sum_add_distrib, Finset.sum_ite_eq' , Finset.sum_ite_eq', if_pos (by simp; omega), if_pos (by simp; omega), map_add,
      map_pow, map_pow, mul_add, mul_one]
    show xr ^ _ + xr ^ _ = _
    rw [← pow_add]
    congr 2
    omega
  · intro n hn
    simp only [Finset.mem_range] at hn
    have h1 := hd n hn
    have hnb : n < b.length := by omega
    have e : (List.zipWith xor a b).getD n false = xor a[n] b[n] := by
      simp [List.getD, hn, hnb]
    rw [e]
    rw [List.getElem?_eq_getElem hn, List.getElem?_eq_getElem hnb] at h1
    by_cases hni : n = i
    · have hne : a[n] ≠ b[n] := fun e => (h1.mpr (Or.inl hni)) (by rw [e])
      rw [if_pos (show (xor a[n] b[n]) = true by simpa using hne), if_pos hni, if_neg (show ¬n = j by omega), add_zero]
    · by_cases hnj : n = j
      · have hne : a[n] ≠ b[n] := fun e => (h1.mpr (Or.inr hnj)) (by rw [e])
        rw [if_pos (show (xor a[n] b[n]) = true by simpa using hne), if_neg hni, if_pos hnj, zero_add]
      · have heq : a[n] = b[n] := by
          by_contra hne
          rcases h1.mp (by simpa using hne) with h | h
          · exact hni h
          · exact hnj h
        rw [if_neg hni, if_neg hnj, if_neg (by simp [heq]), zero_add]

/-- C32. Two messages of equal length that differ in exactly two bits have the same checksum exactly if the distance of the two bits is
a multiple of 32767. -/
theorem C32_two_bits_iff (c : Crc) (m m' : List Byte) (hl : m.length = m'.length) (i j : Nat) (hij : i < j)
    (hj : j < (messageBits m).length)
    (hd : ∀ n, n < (messageBits m).length → ((messageBits m)[n]? ≠ (messageBits m')[n]? ↔ n = i ∨ n = j)) :
    crcFrom c m = crcFrom c m' ↔ 32767 ∣ j - i := by
  have h := two_bits_rem m m' hl i j hij hj hd
  have hb : (messageBits m).length = (messageBits m').length := by rw [messageBits_length, messageBits_length, hl]
  rw [crc_eq_iff c m m' hl, ← AdjoinRoot.mk_eq_zero]
  show rem (List.zipWith xor _ _) = 0 ↔ _
  rw [rem_xor _ _ hb, h, ← xr_order, orderOf_dvd_iff_pow_eq_one]
  constructor
  · intro e
    have := xr_pow_cancel _ (xr ^ (j - i) + 1) 0 (by rw [mul_comm, e, zero_mul])
    linear_combination this - rem_add_self 1
  · intro e
    rw [e, rem_add_self, mul_zero]

/-- C32. In particular, two bit errors less than 32767 bits apart are detected. -/
theorem C32_two_bits (c : Crc) (m m' : List Byte) (hl : m.length = m'.length) (i j : Nat) (hij : i < j)
    (hj : j < (messageBits m).length) (hclose : j - i < 32767)
    (hd : ∀ n, n < (messageBits m).length → ((messageBits m)[n]? ≠ (messageBits m')[n]? ↔ n = i ∨ n = j)) :
    crcFrom c m ≠ crcFrom c m' := by
  rw [Ne, C32_two_bits_iff c m m' hl i j hij hj hd]
  intro h
  have := Nat.le_of_dvd (by omega) h
  omega

/-! The check value of the catalogue, and messages that meet the hypotheses. -/

example : crcOf ("123456789".toList.map fun ch => BitVec.ofNat 8 ch.toNat) = 0x29B1#16 := by decide +kernel

example : crcOf [] = 0xFFFF#16 := rfl

example : messageBits [0x12#8, 0x34#8] = messageBits [0x12#8] ++ msbBits (0x34#8) ++ messageBits [] ∧
    messageBits [0x12#8, 0x35#8] = messageBits [0x12#8] ++ msbBits (0x35#8) ++ messageBits [] := by decide

example : (difference (messageBits [0x00#8, 0x01#8]) (messageBits [0x80#8, 0x82#8])).count true % 2 = 0 ∧
    (difference (messageBits [0x00#8, 0x01#8]) (messageBits [0x80#8, 0x80#8])).count true % 2 = 1 := by decide

example : ∀ n, n < (messageBits [0x00#8, 0x00#8]).length →
    ((messageBits [0x00#8, 0x00#8])[n]? ≠ (messageBits [0x40#8, 0x01#8])[n]? ↔ n = 1 ∨ n = 15) := by decide

end RR32
