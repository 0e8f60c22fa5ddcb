import Verif.Proofs.Bits
import Verif.Model.Station

/-! # C01, C02, C03, C04: identifier, loc-id, payload equality, sender hash -/

set_option autoImplicit false

namespace RR32

/-! ## C01 -/

/-- The four fields of an identifier are the documented bits, for every identifier. -/
theorem C01_fields (i : Identifier) :
    i.getHash.toNat = i.raw.toNat % 2 ^ 16 ∧
    (i.isResponse = true ↔ i.raw.toNat / 2 ^ 16 % 2 = 1) ∧
    i.getCommand.toNat = i.raw.toNat / 2 ^ 17 % 2 ^ 8 ∧
    i.getPriority.toNat = i.raw.toNat / 2 ^ 25 % 2 ^ 4 := by
  refine ⟨?_, ?_, ?_, ?_⟩
  · simp only [Identifier.getHash, BitVec.truncate_eq_setWidth, BitVec.toNat_setWidth]
    rw [toNat_mask _ 16 _ rfl]; omega
  · simp only [Identifier.isResponse, Identifier.kResponseBitMask]
    have e : i.raw &&& 1#32 <<< 16 = ((i.raw >>> 16) &&& 1#32) <<< 16 := by bits
    have h : (((i.raw >>> 16) &&& 1#32) <<< 16).toNat = i.raw.toNat / 2 ^ 16 % 2 * 2 ^ 16 := by
      rw [toNat_shl, toNat_mask _ 1 _ rfl, toNat_shr]; omega
    rw [e, bne_iff_ne, ne_eq, ← BitVec.toNat_inj, h]
    simp
  · simp only [Identifier.getCommand, BitVec.truncate_eq_setWidth, BitVec.toNat_setWidth]
    rw [toNat_mask _ 8 _ rfl, toNat_shr]; omega
  · simp only [Identifier.getPriority, BitVec.truncate_eq_setWidth, BitVec.toNat_setWidth]
    rw [toNat_mask _ 4 _ rfl, toNat_shr]; omega

/-- A setter replaces exactly its own bits of the raw value; all others stay. -/
theorem C01_setters (i : Identifier) (h : U16) (c : Byte) (r : Bool) :
    (i.setHash h).raw.toNat = i.raw.toNat / 2 ^ 16 * 2 ^ 16 + h.toNat ∧
    (i.setResponse r).raw.toNat = i.raw.toNat / 2 ^ 17 * 2 ^ 17 + r.toNat * 2 ^ 16 + i.raw.toNat % 2 ^ 16 ∧
    (i.setCommand c).raw.toNat = i.raw.toNat / 2 ^ 25 * 2 ^ 25 + c.toNat * 2 ^ 17 + i.raw.toNat % 2 ^ 17 := by
  have hi := i.raw.isLt
  have hh := h.isLt
  have hc := c.isLt
  refine ⟨?_, ?_, ?_⟩
  · have e : i.raw &&& ~~~Identifier.kHashBitMask = (i.raw >>> 16) <<< 16 := by
      unfold Identifier.kHashBitMask; bits
    simp only [Identifier.setHash]
    rw [toNat_or_disjoint _ _ (by unfold Identifier.kHashBitMask; bits), e, toNat_shl, toNat_shr]
    simp; omega
  · have e : i.raw &&& ~~~Identifier.kResponseBitMask = ((i.raw >>> 17) <<< 17) ||| ((i.raw <<< 16) >>> 16) := by
      unfold Identifier.kResponseBitMask; bits
    have e' : i.raw ||| Identifier.kResponseBitMask = (i.raw &&& ~~~Identifier.kResponseBitMask) ||| 65536#32 := by
      unfold Identifier.kResponseBitMask; bits
    cases r
    · simp only [Identifier.setResponse]
      rw [if_neg (by simp), e, toNat_or_disjoint _ _ (by bits)]
      simp only [toNat_shl, toNat_shr]; simp; omega
    · simp only [Identifier.setResponse]
      rw [if_pos trivial, e', toNat_or_disjoint _ _ (by unfold Identifier.kResponseBitMask; bits), e,
        toNat_or_disjoint _ _ (by bits)]
      simp only [toNat_shl, toNat_shr]; simp; omega
  · have e : i.raw &&& ~~~Identifier.kCommandBitMask = ((i.raw >>> 25) <<< 25) ||| ((i.raw <<< 15) >>> 15) := by
      unfold Identifier.kCommandBitMask; bits
    simp only [Identifier.setCommand]
    rw [toNat_or_disjoint _ _ (by unfold Identifier.kCommandBitMask; bits), e, toNat_or_disjoint _ _ (by bits)]
    simp only [toNat_shl, toNat_shr]
    simp; omega

/-- Every setter is read back by its getter, and no setter disturbs another field. -/
theorem C01_readback (i : Identifier) (h : U16) (c : Byte) (r : Bool) :
    ((i.setHash h).getHash = h ∧ (i.setHash h).isResponse = i.isResponse ∧ (i.setHash h).getCommand = i.getCommand ∧
      (i.setHash h).getPriority = i.getPriority) ∧
    ((i.setResponse r).isResponse = r ∧ (i.setResponse r).getHash = i.getHash ∧
      (i.setResponse r).getCommand = i.getCommand ∧ (i.setResponse r).getPriority = i.getPriority) ∧
    ((i.setCommand c).getCommand = c ∧ (i.setCommand c).getHash = i.getHash ∧
      (i.setCommand c).isResponse = i.isResponse ∧ (i.setCommand c).getPriority = i.getPriority) := by
  have hi := i.raw.isLt
  have hh := h.isLt
  have hc := c.isLt
  obtain ⟨s1, s2, s3⟩ := C01_setters i h c r
  have key : ∀ j : Identifier,
      (j.getHash.toNat = j.raw.toNat % 2 ^ 16 ∧ j.getCommand.toNat = j.raw.toNat / 2 ^ 17 % 2 ^ 8 ∧
        j.getPriority.toNat = j.raw.toNat / 2 ^ 25 % 2 ^ 4) ∧
      (j.isResponse = decide (j.raw.toNat / 2 ^ 16 % 2 = 1)) := by
    intro j
    obtain ⟨f1, f2, f3, f4⟩ := C01_fields j
    exact ⟨⟨f1, f3, f4⟩, by rw [Bool.eq_iff_iff, f2, decide_eq_true_iff]⟩
  obtain ⟨⟨f1, f3, f4⟩, f2⟩ := key i
  refine ⟨?_, ?_, ?_⟩
  · obtain ⟨⟨g1, g3, g4⟩, g2⟩ := key (i.setHash h)
    rw [s1] at g1 g2 g3 g4
    clear s1 s2 s3 key
    refine ⟨BitVec.eq_of_toNat_eq (by omega), ?_, BitVec.eq_of_toNat_eq (by omega), BitVec.eq_of_toNat_eq (by omega)⟩
    rw [g2, f2]; congr 2; omega
  · obtain ⟨⟨g1, g3, g4⟩, g2⟩ := key (i.setResponse r)
    rw [s2] at g1 g2 g3 g4
    clear s1 s2 s3 key
    cases r
    · simp only [Bool.toNat_false] at g1 g2 g3 g4
      refine ⟨?_, BitVec.eq_of_toNat_eq (by omega), BitVec.eq_of_toNat_eq (by omega), BitVec.eq_of_toNat_eq (by omega)⟩
      rw [g2, decide_eq_false_iff_not]; omega
    · simp only [Bool.toNat_true] at g1 g2 g3 g4
      refine ⟨?_, BitVec.eq_of_toNat_eq (by omega), BitVec.eq_of_toNat_eq (by omega), BitVec.eq_of_toNat_eq (by omega)⟩
      rw [g2, decide_eq_true_iff]; omega
  · obtain ⟨⟨g1, g3, g4⟩, g2⟩ := key (i.setCommand c)
    rw [s3] at g1 g2 g3 g4
    clear s1 s2 s3 key
    refine ⟨BitVec.eq_of_toNat_eq (by omega), BitVec.eq_of_toNat_eq (by omega), ?_, BitVec.eq_of_toNat_eq (by omega)⟩
    rw [g2, f2]; congr 2; omega

/-- Building from command and hash yields exactly these two fields. -/
theorem C01_construct (c : Byte) (h : U16) : (Identifier.mk' c h).raw.toNat = c.toNat * 2 ^ 17 + h.toNat := by
  have hh := h.isLt
  have hc := c.isLt
  simp only [Identifier.mk']
  rw [(C01_setters _ h c false).1, (C01_setters _ h c false).2.2]
  simp only [BitVec.toNat_ofNat]
  omega

/-- Conversion from and to the raw identifier loses nothing, in both input forms. -/
theorem C01_raw (x : U32) (b0 b1 b2 b3 : Byte) (i j : Identifier) :
    (Identifier.ofU32 x).makeIdentifier = x ∧
    (Identifier.ofBytes b0 b1 b2 b3).makeIdentifier.toNat =
      b0.toNat * 2 ^ 24 + b1.toNat * 2 ^ 16 + b2.toNat * 2 ^ 8 + b3.toNat ∧
    (i.eq j = true ↔ i = j) ∧
    (∀ u, (i.computeAndSetHash u).raw.toNat = i.raw.toNat / 2 ^ 16 * 2 ^ 16 + (computeSenderHash u).toNat) := by
  have h0 := b0.isLt
  have h1 := b1.isLt
  have h2 := b2.isLt
  have h3 := b3.isLt
  refine ⟨rfl, ?_, ?_, ?_⟩
  · simp only [Identifier.makeIdentifier, Identifier.ofBytes, Identifier.ofU32]
    rw [toNat_or_disjoint _ _ (by bits), toNat_or_disjoint _ _ (by bits), toNat_or_disjoint _ _ (by bits)]
    simp only [toNat_shl]; simp; omega
  · cases i; cases j; simp [Identifier.eq]
  · intro u
    exact (C01_setters i (computeSenderHash u) 0#8 false).1

/-- Non-vacuity: an identifier with all fields set. -/
example : (Identifier.mk' 0x21#8 0xABCD#16).raw = 0x42ABCD#32 ∧ (⟨0x1E43ABCD#32⟩ : Identifier).getPriority = 0xF#8 ∧
    (⟨0x1E43ABCD#32⟩ : Identifier).getCommand = 0x21#8 ∧ (⟨0x1E43ABCD#32⟩ : Identifier).isResponse = true := by decide

/-! ## C02 -/

/-- A loc-id read from a payload is the big-endian number in bytes 0-3. -/
theorem C02_get (d : Data) :
    d.getLocid.toNat = d.b0.toNat * 2 ^ 24 + d.b1.toNat * 2 ^ 16 + d.b2.toNat * 2 ^ 8 + d.b3.toNat := by
  have h0 := d.b0.isLt
  have h1 := d.b1.isLt
  have h2 := d.b2.isLt
  have h3 := d.b3.isLt
  simp only [Data.getLocid]
  rw [toNat_or_disjoint _ _ (by bits), toNat_or_disjoint _ _ (by bits), toNat_or_disjoint _ _ (by bits)]
  simp only [toNat_shl]; simp; omega

/-- Writing a loc-id stores its four bytes big-endian, touches nothing else, and is read back. -/
theorem C02_roundtrip (d : Data) (l : U32) :
    (d.setLocid l).getLocid = l ∧
    (d.setLocid l).b0.toNat = l.toNat / 2 ^ 24 ∧ (d.setLocid l).b1.toNat = l.toNat / 2 ^ 16 % 2 ^ 8 ∧
    (d.setLocid l).b2.toNat = l.toNat / 2 ^ 8 % 2 ^ 8 ∧ (d.setLocid l).b3.toNat = l.toNat % 2 ^ 8 ∧
    (d.setLocid l).dlc = d.dlc ∧ (d.setLocid l).bytes.drop 4 = d.bytes.drop 4 := by
  have hl := l.isLt
  refine ⟨?_, ?_, ?_, ?_, ?_, rfl, rfl⟩
  · simp only [Data.getLocid, Data.setLocid]; bits
  · simp [Data.setLocid, Nat.shiftRight_eq_div_pow]; omega
  · simp [Data.setLocid, Nat.shiftRight_eq_div_pow]
  · simp [Data.setLocid, Nat.shiftRight_eq_div_pow]
  · simp [Data.setLocid]

/-- Two payloads with the same loc-id have the same first four bytes. -/
theorem C02_injective (d e : Data) (h : d.getLocid = e.getLocid) : d.bytes.take 4 = e.bytes.take 4 := by
  have hd := C02_get d
  have he := C02_get e
  have h' := congrArg BitVec.toNat h
  have := d.b0.isLt; have := d.b1.isLt; have := d.b2.isLt; have := d.b3.isLt
  have := e.b0.isLt; have := e.b1.isLt; have := e.b2.isLt; have := e.b3.isLt
  have e0 : d.b0 = e.b0 := by apply BitVec.eq_of_toNat_eq; omega
  have e1 : d.b1 = e.b1 := by apply BitVec.eq_of_toNat_eq; omega
  have e2 : d.b2 = e.b2 := by apply BitVec.eq_of_toNat_eq; omega
  have e3 : d.b3 = e.b3 := by apply BitVec.eq_of_toNat_eq; omega
  simp [Data.bytes, e0, e1, e2, e3]

/-- Non-vacuity: a loc-id with four different bytes in a payload with other content. -/
example : (({ dlc := 6#8, b4 := 7#8 } : Data).setLocid 0x01020304#32).bytes = [1#8, 2#8, 3#8, 4#8, 7#8, 0#8, 0#8, 0#8, 0#8] := by
  decide

/-! ## C03 -/

/-- Payload comparison for lengths within the buffer: no fault, and the answer is agreement on the length and on the first
`dlc` bytes. -/
theorem C03_payload_eq (a b : Data) (ha : a.dlc.toNat ≤ 9) :
    ∃ r, a.eq b = .ok r ∧ (r = true ↔ a.dlc = b.dlc ∧ ∀ i, i < a.dlc.toNat → a.bytes[i]? = b.bytes[i]?) := by
  unfold Data.eq
  by_cases h : a.dlc = b.dlc
  · have l1 : a.bytes.length = 9 := rfl
    have l2 : b.bytes.length = 9 := rfl
    rw [if_neg (by simpa using h), memcmpEq, if_pos (by omega)]
    refine ⟨_, rfl, ?_⟩
    simp only [beq_iff_eq, h, true_and]
    constructor
    · intro e i hi
      have := congrArg (fun l => l[i]?) e
      simpa [List.getElem?_take, hi] using this
    · intro e
      apply List.ext_getElem?
      intro i
      simp only [List.getElem?_take]
      split
      · exact e i (by omega)
      · rfl
  · rw [if_pos h]
    exact ⟨false, rfl, by simp [h]⟩

/-- Payload comparison is reflexive, symmetric and transitive for lengths within the buffer. -/
theorem C03_payload_equivalence (a b c : Data) (ha : a.dlc.toNat ≤ 9) (hb : b.dlc.toNat ≤ 9) :
    a.eq a = .ok true ∧ a.eq b = b.eq a ∧ (a.eq b = .ok true → b.eq c = .ok true → a.eq c = .ok true) := by
  refine ⟨?_, ?_, ?_⟩
  · obtain ⟨r, h1, h2⟩ := C03_payload_eq a a ha
    rw [h1, h2.mpr ⟨rfl, fun _ _ => rfl⟩]
  · obtain ⟨r, h1, h2⟩ := C03_payload_eq a b ha
    obtain ⟨s, h3, h4⟩ := C03_payload_eq b a hb
    rw [h1, h3]
    have : r = s := by
      rw [Bool.eq_iff_iff, h2, h4]
      constructor
      · intro ⟨e, f⟩
        exact ⟨e.symm, fun i hi => (f i (e ▸ hi)).symm⟩
      · intro ⟨e, f⟩
        exact ⟨e.symm, fun i hi => (f i (e ▸ hi)).symm⟩
    rw [this]
  · intro hab hbc
    obtain ⟨r, h1, h2⟩ := C03_payload_eq a b ha
    obtain ⟨s, h3, h4⟩ := C03_payload_eq b c hb
    obtain ⟨t, h5, h6⟩ := C03_payload_eq a c ha
    rw [h1] at hab
    rw [h3] at hbc
    injection hab with hr
    injection hbc with hs
    obtain ⟨e1, f1⟩ := h2.mp hr
    obtain ⟨e2, f2⟩ := h4.mp hs
    rw [h5, h6.mpr ⟨e1.trans e2, fun i hi => (f1 i hi).trans (f2 i (e1 ▸ hi))⟩]

/-- With a length beyond the nine-byte buffer, comparing two payloads of equal length reads out of bounds; comparing payloads of
different length never does. -/
theorem C03_payload_overrun (a b : Data) (ha : 9 < a.dlc.toNat) :
    (a.dlc = b.dlc → a.eq b = .error .oobRead) ∧ (a.dlc ≠ b.dlc → a.eq b = .ok false) := by
  constructor
  · intro h
    have l1 : a.bytes.length = 9 := rfl
    unfold Data.eq
    rw [if_neg (by simpa using h), memcmpEq, if_neg (by omega)]
  · intro h
    unfold Data.eq
    rw [if_pos h]

/-- Frames are equal exactly when identifiers and payloads are. -/
theorem C03_frame_eq (f g : CanFrame) (hf : f.data.dlc.toNat ≤ 9) :
    ∃ r, f.eq g = .ok r ∧ (r = true ↔ f.id.raw = g.id.raw ∧ f.data.eq g.data = .ok true) := by
  obtain ⟨s, h1, h2⟩ := C03_payload_eq f.data g.data hf
  unfold CanFrame.eq
  by_cases h : f.id.raw = g.id.raw
  · have : f.id.eq g.id = true := by simp [Identifier.eq, h]
    rw [if_pos this, h1]
    exact ⟨s, rfl, by simp [h]⟩
  · have : ¬ f.id.eq g.id = true := by simp [Identifier.eq, h]
    rw [if_neg this]
    exact ⟨false, rfl, by simp [h]⟩

/-- Non-vacuity: payloads that agree on the first two bytes only; equal at length 2, different at length 3; a length of 10
overruns. -/
example :
    ({ dlc := 2#8, b0 := 1#8, b1 := 2#8, b2 := 3#8 } : Data).eq { dlc := 2#8, b0 := 1#8, b1 := 2#8, b2 := 4#8 } = .ok true ∧
    ({ dlc := 3#8, b0 := 1#8, b1 := 2#8, b2 := 3#8 } : Data).eq { dlc := 3#8, b0 := 1#8, b1 := 2#8, b2 := 4#8 } = .ok false ∧
    ({ dlc := 10#8 } : Data).eq { dlc := 10#8 } = .error .oobRead := by decide

/-! ## C04 -/

/-- The squeezed UUID of the general formula: bits 11 and up moved down by three, bits 0-6 kept. -/
theorem C04_squeeze (uid : U32) :
    (((uid >>> 3) &&& 0xFFFFFF00#32) ||| (uid &&& 0x7F#32)).toNat = uid.toNat / 2 ^ 11 * 2 ^ 8 + uid.toNat % 2 ^ 7 := by
  have e : (uid >>> 3) &&& 0xFFFFFF00#32 = (uid >>> 11) <<< 8 := by bits
  have hu := uid.isLt
  rw [toNat_or_disjoint _ _ (by bits), e, toNat_mask uid 7 _ rfl]
  simp only [toNat_shl, toNat_shr]; omega

/-- For a general 32-bit UUID the hash is the XOR of the two halves of the squeezed UUID. -/
theorem C04_general (uid : U32) :
    (computeSenderHash uid).toNat =
      (uid.toNat / 2 ^ 11 * 2 ^ 8 + uid.toNat % 2 ^ 7) % 2 ^ 16 ^^^ (uid.toNat / 2 ^ 11 * 2 ^ 8 + uid.toNat % 2 ^ 7) / 2 ^ 16 := by
  have hu := uid.isLt
  simp only [computeSenderHash, BitVec.truncate_eq_setWidth, BitVec.toNat_xor, BitVec.toNat_setWidth, toNat_shr, C04_squeeze]
  congr 1
  apply Nat.mod_eq_of_lt
  omega

/-- After `begin` the station's hash is the documented function of its 16-bit UUID. -/
theorem C04_begin (s : Station) (uuid : U16) (cbs : Callbacks) :
    (s.begin_ uuid cbs).1.senderHash.toNat = uuid.toNat / 2 ^ 11 * 2 ^ 8 + uuid.toNat % 2 ^ 7 ∧
    (s.begin_ uuid cbs).1.callbacks = cbs := by
  have hu := uuid.isLt
  refine ⟨?_, rfl⟩
  have h : (uuid.zeroExtend 32).toNat = uuid.toNat := by simp; omega
  simp only [Station.begin_]
  rw [C04_general, h]
  have : (uuid.toNat / 2 ^ 11 * 2 ^ 8 + uuid.toNat % 2 ^ 7) / 2 ^ 16 = 0 := by omega
  rw [this, Nat.xor_zero, Nat.mod_eq_of_lt (by omega)]

/-- The same as the formula in the documentation, `((uuid>>3)&0x1F00)|(uuid&0x7F)`. -/
theorem C04_formula (s : Station) (uuid : U16) (cbs : Callbacks) :
    (s.begin_ uuid cbs).1.senderHash = ((uuid >>> 3) &&& 0x1F00#16) ||| (uuid &&& 0x7F#16) := by
  have hu := uuid.isLt
  apply BitVec.eq_of_toNat_eq
  rw [(C04_begin s uuid cbs).1]
  have e : (uuid >>> 3) &&& 0x1F00#16 = (uuid >>> 11) <<< 8 := by bits
  rw [toNat_or_disjoint _ _ (by bits), e, toNat_mask uuid 7 _ rfl]
  simp only [toNat_shl, toNat_shr]; omega

/-- Two stations get the same hash exactly when their UUIDs agree on bits 0-6 and 11-15. -/
theorem C04_collision (s t : Station) (u v : U16) (cu cv : Callbacks) :
    (s.begin_ u cu).1.senderHash = (t.begin_ v cv).1.senderHash ↔
      u.toNat % 2 ^ 7 = v.toNat % 2 ^ 7 ∧ u.toNat / 2 ^ 11 = v.toNat / 2 ^ 11 := by
  have hu := (C04_begin s u cu).1
  have hv := (C04_begin t v cv).1
  have := u.isLt
  have := v.isLt
  rw [← BitVec.toNat_inj]
  omega

/-- Stations numbered within one block of 128 UUIDs have distinct hashes. -/
theorem C04_distinct (s t : Station) (u v : U16) (cu cv : Callbacks) (hb : u.toNat / 2 ^ 7 = v.toNat / 2 ^ 7) (hne : u ≠ v) :
    (s.begin_ u cu).1.senderHash ≠ (t.begin_ v cv).1.senderHash := by
  intro h
  rw [C04_collision] at h
  apply hne
  apply BitVec.eq_of_toNat_eq
  omega

/-- Non-vacuity: the enthusiast base UUID plus 11 and plus 12, and two UUIDs that collide. -/
example : ((({} : Station).begin_ 0x180B#16 {}).1.senderHash = 0x030B#16) ∧ (0x180B#16).toNat / 2 ^ 7 = (0x180C#16).toNat / 2 ^ 7 ∧
    (({} : Station).begin_ 0x1080#16 {}).1.senderHash = (({} : Station).begin_ 0x1000#16 {}).1.senderHash := by decide

end RR32
