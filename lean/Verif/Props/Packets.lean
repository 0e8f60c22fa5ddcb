import Verif.Props.Identifier
import Verif.Props.Addresses
import Verif.Proofs.CLib

/-! # C08, C09, C10: message views and frame builders -/

set_option autoImplicit false

namespace RR32

/-! ## C08 -/

/-- Address, direction and power of a turnout packet are independent fields: each is read back, the others and the length stay. -/
theorem C08_fields (d : Data) (a : MachineTurnoutAddress) (dir : TurnoutDirection) (pow : Bool) :
    (TurnoutPacket.getLocid (TurnoutPacket.setLocid d a) = a ∧
      TurnoutPacket.getDirection (TurnoutPacket.setLocid d a) = TurnoutPacket.getDirection d ∧
      TurnoutPacket.getPower (TurnoutPacket.setLocid d a) = TurnoutPacket.getPower d ∧
      (TurnoutPacket.setLocid d a).dlc = d.dlc ∧ (TurnoutPacket.setLocid d a).bytes.drop 4 = d.bytes.drop 4) ∧
    (TurnoutPacket.getDirection (TurnoutPacket.setDirection d dir) = dir ∧
      TurnoutPacket.getLocid (TurnoutPacket.setDirection d dir) = TurnoutPacket.getLocid d ∧
      TurnoutPacket.getPower (TurnoutPacket.setDirection d dir) = TurnoutPacket.getPower d ∧
      (TurnoutPacket.setDirection d dir).dlc = d.dlc ∧
      (TurnoutPacket.setDirection d dir).bytes = d.bytes.set 4 dir) ∧
    (TurnoutPacket.getPower (TurnoutPacket.setPower d pow) = pow ∧
      TurnoutPacket.getLocid (TurnoutPacket.setPower d pow) = TurnoutPacket.getLocid d ∧
      TurnoutPacket.getDirection (TurnoutPacket.setPower d pow) = TurnoutPacket.getDirection d ∧
      (TurnoutPacket.setPower d pow).dlc = d.dlc ∧
      (TurnoutPacket.setPower d pow).bytes = d.bytes.set 5 (BitVec.ofNat 8 pow.toNat)) := by
  refine ⟨⟨?_, rfl, rfl, rfl, rfl⟩, ⟨rfl, rfl, rfl, rfl, rfl⟩, ⟨?_, rfl, rfl, rfl, ?_⟩⟩
  · simp only [TurnoutPacket.getLocid, TurnoutPacket.setLocid, (C02_roundtrip d a.addr).1]
  · cases pow <;> rfl
  · cases pow <;> rfl

/-- Initialising a packet gives length 6 and nine zero bytes, whatever was there. -/
theorem C08_init (d : Data) :
    (TurnoutPacket.initData d).dlc = 6#8 ∧ (TurnoutPacket.initData d).bytes = List.replicate 9 0#8 ∧
    TurnoutPacket.getPower (TurnoutPacket.initData d) = false := ⟨rfl, rfl, rfl⟩

/-- Power is on exactly when byte 5 is not zero. Direction is byte 4. -/
theorem C08_raw (d : Data) :
    (TurnoutPacket.getPower d = true ↔ d.bytes[5]? ≠ some 0#8) ∧ d.bytes[4]? = some (TurnoutPacket.getDirection d) ∧
    (TurnoutPacket.getLocid d).addr.toNat = d.b0.toNat * 2 ^ 24 + d.b1.toNat * 2 ^ 16 + d.b2.toNat * 2 ^ 8 + d.b3.toNat := by
  refine ⟨?_, rfl, C02_get d⟩
  simp [TurnoutPacket.getPower, Data.bytes]

/-- Two packets are equal exactly when address, direction and power-on agree; length and further bytes do not matter. -/
theorem C08_eq (a b : Data) :
    TurnoutPacket.eq a b = true ↔
      a.getLocid = b.getLocid ∧ a.bytes[4]? = b.bytes[4]? ∧ (a.bytes[5]? = some 0#8 ↔ b.bytes[5]? = some 0#8) := by
  simp only [TurnoutPacket.eq, MachineTurnoutAddress.eq, TurnoutPacket.getLocid, TurnoutPacket.getDirection,
    TurnoutPacket.getPower, Data.bytes, Bool.and_eq_true, beq_iff_eq, and_assoc]
  simp only [List.getElem?_cons_succ, List.getElem?_cons_zero, Option.some.injEq]
  refine and_congr Iff.rfl (and_congr Iff.rfl ?_)
  rw [Bool.eq_iff_iff, bne_iff_ne, bne_iff_ne, not_iff_not]

/-- The reported protocol depends on the address only, by the documented ranges. -/
theorem C08_protocol (d : Data) : TurnoutPacket.getRailProtocol d = Spec.accessoryOwner d.getLocid.toNat :=
  getRailProtocol_eq d

/-- Non-vacuity: an initialised packet with all fields set; two packets that differ only in the value of a non-zero power byte. -/
example :
    (TurnoutPacket.setPower (TurnoutPacket.setDirection (TurnoutPacket.setLocid
      (TurnoutPacket.initData { dlc := 3#8, b7 := 9#8 }) ⟨0x3801#32⟩) TurnoutDirection.GREEN) true).bytes =
        [0#8, 0#8, 0x38#8, 1#8, 1#8, 1#8, 0#8, 0#8, 0#8] ∧
    TurnoutPacket.eq { b5 := 1#8 } { b5 := 2#8, dlc := 4#8 } = true ∧
    TurnoutPacket.getRailProtocol { b2 := 0x38#8 } = .DCC := by decide

/-! ## C09 -/

private theorem be16 (x y : Byte) :
    ((x.zeroExtend 16 <<< 8) ||| y.zeroExtend 16).toNat = x.toNat * 2 ^ 8 + y.toNat := by
  have := x.isLt
  have := y.isLt
  rw [toNat_or_disjoint _ _ (by bits)]
  simp only [toNat_shl]; simp; omega

/-- What the getters of an S88 event read, byte by byte. -/
theorem C09_get (d : Data) :
    (S88Event.getDeviceId d).addr.toNat = d.b0.toNat * 2 ^ 8 + d.b1.toNat ∧
    (S88Event.getContactId d).addr.toNat = d.b2.toNat * 2 ^ 8 + d.b3.toNat ∧
    (S88Event.getOldState d).toNat = d.b4.toNat ∧ (S88Event.getNewState d).toNat = d.b5.toNat ∧
    (S88Event.getTime d).toNat = d.b6.toNat * 2 ^ 8 + d.b7.toNat := by
  have hz : ∀ x : U16, (x.zeroExtend 32).toNat = x.toNat := by
    intro x; have := x.isLt; simp; omega
  have hb : ∀ x : Byte, (x.zeroExtend 32).toNat = x.toNat := by
    intro x; have := x.isLt; simp; omega
  refine ⟨?_, ?_, ?_, ?_, ?_⟩
  · simp only [S88Event.getDeviceId, hz, be16]
  · simp only [S88Event.getContactId, hz, be16]
  · simp only [S88Event.getOldState, hb]
  · simp only [S88Event.getNewState, hb]
  · simp only [S88Event.getTime, be16]

/-- The setters of an S88 event: each is read back (truncated to the field's width) and changes no other field, nor the length. -/
theorem C09_fields (d : Data) (a : MachineTurnoutAddress) (o n : SensorState) (t : U16) :
    ((S88Event.getDeviceId (S88Event.setDeviceId d a)).addr.toNat = a.addr.toNat % 2 ^ 16 ∧
      (S88Event.setDeviceId d a).bytes.drop 2 = d.bytes.drop 2 ∧ (S88Event.setDeviceId d a).dlc = d.dlc) ∧
    ((S88Event.getContactId (S88Event.setContactId d a)).addr.toNat = a.addr.toNat % 2 ^ 16 ∧
      (S88Event.setContactId d a).bytes.take 2 = d.bytes.take 2 ∧ (S88Event.setContactId d a).bytes.drop 4 = d.bytes.drop 4 ∧
      (S88Event.setContactId d a).dlc = d.dlc) ∧
    ((S88Event.getOldState (S88Event.setStates d o n)).toNat = o.toNat % 2 ^ 8 ∧
      (S88Event.getNewState (S88Event.setStates d o n)).toNat = n.toNat % 2 ^ 8 ∧
      (S88Event.setStates d o n).bytes.take 4 = d.bytes.take 4 ∧ (S88Event.setStates d o n).bytes.drop 6 = d.bytes.drop 6 ∧
      (S88Event.setStates d o n).dlc = d.dlc) ∧
    (S88Event.getTime (S88Event.setTime d t) = t ∧
      (S88Event.setTime d t).bytes.take 6 = d.bytes.take 6 ∧ (S88Event.setTime d t).bytes.drop 8 = d.bytes.drop 8 ∧
      (S88Event.setTime d t).dlc = d.dlc) := by
  refine ⟨⟨?_, rfl, rfl⟩, ⟨?_, rfl, rfl, rfl⟩, ⟨?_, ?_, rfl, rfl, rfl⟩, ⟨?_, rfl, rfl, rfl⟩⟩
  · rw [(C09_get _).1]
    simp [S88Event.setDeviceId, Nat.shiftRight_eq_div_pow]; omega
  · rw [(C09_get _).2.1]
    simp [S88Event.setContactId, Nat.shiftRight_eq_div_pow]; omega
  · rw [(C09_get _).2.2.1]
    simp [S88Event.setStates]
  · rw [(C09_get _).2.2.2.1]
    simp [S88Event.setStates]
  · apply BitVec.eq_of_toNat_eq
    rw [(C09_get _).2.2.2.2]
    have := t.isLt
    have hm : (t &&& 0xFF#16).toNat = t.toNat % 2 ^ 8 := toNat_mask _ 8 _ rfl
    simp only [S88Event.setTime, BitVec.truncate_eq_setWidth, BitVec.toNat_setWidth, toNat_shr, hm]
    omega

/-- Subtypes are the lengths 4, 5 and 8; every other length reads as RESPONSE. Setting a subtype changes nothing but the length. -/
theorem C09_subtype (d : Data) (s : S88Event.Subtype) :
    S88Event.getSubtype (S88Event.setSubtype d s) = s ∧ (S88Event.setSubtype d s).bytes = d.bytes ∧
    (S88Event.setSubtype d s).dlc.toNat = (match s with | .REQUEST => 4 | .EVENT => 5 | .RESPONSE => 8) ∧
    (S88Event.getSubtype d = .REQUEST ↔ d.dlc.toNat = 4) ∧ (S88Event.getSubtype d = .EVENT ↔ d.dlc.toNat = 5) ∧
    (S88Event.getSubtype d = .RESPONSE ↔ d.dlc.toNat ≠ 4 ∧ d.dlc.toNat ≠ 5) := by
  have h4 : d.dlc = 4#8 ↔ d.dlc.toNat = 4 := by rw [← BitVec.toNat_inj]; rfl
  have h5 : d.dlc = 5#8 ↔ d.dlc.toNat = 5 := by rw [← BitVec.toNat_inj]; rfl
  refine ⟨?_, ?_, ?_, ?_⟩
  · cases s <;> rfl
  · cases s <;> rfl
  · cases s <;> rfl
  · simp only [S88Event.getSubtype, BaseMessage.length, ← h4, ← h5]
    by_cases e4 : d.dlc = 4#8
    · simp [e4]
    · by_cases e5 : d.dlc = 5#8
      · simp [e5]
      · simp [e4, e5, ← h4, ← h5]

/-- The S88 frame builder decodes back to its arguments, and the frame is an 8-byte S88 request with time 0. -/
theorem C09_builder (dev con : MachineTurnoutAddress) (o n : SensorState) :
    let f := Util.S88Event dev con o n
    f.id.raw.toNat = 0x11 * 2 ^ 17 ∧ f.data.dlc.toNat = 8 ∧ S88Event.getSubtype f.data = .RESPONSE ∧
    (S88Event.getDeviceId f.data).addr.toNat = dev.addr.toNat % 2 ^ 16 ∧
    (S88Event.getContactId f.data).addr.toNat = con.addr.toNat % 2 ^ 16 ∧
    (S88Event.getOldState f.data).toNat = o.toNat % 2 ^ 8 ∧ (S88Event.getNewState f.data).toNat = n.toNat % 2 ^ 8 ∧
    S88Event.getTime f.data = 0#16 ∧ f.data.b8 = 0#8 := by
  refine ⟨?_, rfl, rfl, ?_, ?_, ?_, ?_, ?_, rfl⟩
  · show (Identifier.mk' kS88Event 0#16).raw.toNat = _
    decide
  · rw [(C09_get _).1]
    simp [Util.S88Event, S88Event.setDeviceId, S88Event.setContactId, S88Event.setStates, Nat.shiftRight_eq_div_pow]; omega
  · rw [(C09_get _).2.1]
    simp [Util.S88Event, S88Event.setDeviceId, S88Event.setContactId, S88Event.setStates, Nat.shiftRight_eq_div_pow]; omega
  · rw [(C09_get _).2.2.1]
    simp [Util.S88Event, S88Event.setStates]
  · rw [(C09_get _).2.2.2.1]
    simp [Util.S88Event, S88Event.setStates]
  · apply BitVec.eq_of_toNat_eq
    rw [(C09_get _).2.2.2.2]
    simp [Util.S88Event, S88Event.setStates, S88Event.setContactId, S88Event.setDeviceId, S88Event.setSubtype,
      S88Event.initData, BaseMessage.initData]

/-- The short form reports the opposite old state. -/
theorem C09_short (dev con : MachineTurnoutAddress) (n : SensorState) :
    Util.S88EventNew dev con n =
      Util.S88Event dev con (if n = SensorState.OPEN then SensorState.CLOSED else SensorState.OPEN) n ∧
    S88Event.getOldState (Util.S88EventNew dev con SensorState.OPEN).data = SensorState.CLOSED ∧
    S88Event.getOldState (Util.S88EventNew dev con SensorState.CLOSED).data = SensorState.OPEN ∧
    SensorState.OPEN ≠ SensorState.CLOSED :=
  ⟨rfl, rfl, rfl, by decide⟩

/-- Non-vacuity: a device id above 16 bits is truncated, everything else is kept. -/
example : (Util.S88Event ⟨0x12345#32⟩ ⟨7#32⟩ SensorState.OPEN SensorState.CLOSED).data.bytes =
    [0x23#8, 0x45#8, 0#8, 7#8, 0#8, 1#8, 0#8, 0#8, 0#8] := by decide

/-! ## C10 -/

/-- The header of a built frame: command and response flag as given, hash and priority zero, dlc as given and at most 8, and all
bytes beyond the dlc zero. -/
structure BuiltFrame (f : CanFrame) (command : Nat) (response : Bool) (dlc : Nat) : Prop where
  raw : f.id.raw.toNat = command * 2 ^ 17 + response.toNat * 2 ^ 16
  getCommand : f.id.getCommand.toNat = command
  isResponse : f.id.isResponse = response
  hash : f.id.getHash.toNat = 0
  priority : f.id.getPriority.toNat = 0
  length : f.data.dlc.toNat = dlc
  length_le : dlc ≤ 8
  rest : f.data.bytes.drop dlc = List.replicate (9 - dlc) 0#8

theorem builtFrame_intro {f : CanFrame} {command : Nat} {response : Bool} {dlc : Nat} (hc : command < 256)
    (hraw : f.id.raw.toNat = command * 2 ^ 17 + response.toNat * 2 ^ 16) (hd : f.data.dlc.toNat = dlc) (hl : dlc ≤ 8)
    (hr : f.data.bytes.drop dlc = List.replicate (9 - dlc) 0#8) : BuiltFrame f command response dlc := by
  obtain ⟨f1, f2, f3, f4⟩ := C01_fields f.id
  have hb : response.toNat < 2 := by cases response <;> decide
  refine ⟨hraw, by omega, ?_, by omega, by omega, hd, hl, hr⟩
  have : response = true ↔ response.toNat = 1 := by cases response <;> decide
  rw [Bool.eq_iff_iff, f2, this]
  omega

theorem header_raw (c : Byte) (r : Bool) :
    ((Identifier.mk' c 0#16).setResponse r).raw.toNat = c.toNat * 2 ^ 17 + r.toNat * 2 ^ 16 := by
  have hc := c.isLt
  rw [(C01_setters _ 0#16 0#8 r).2.1, C01_construct]
  simp only [BitVec.toNat_ofNat]
  omega

/-- Locomotive commands. -/
theorem C10_loco (r : Bool) (uid : U32) (v : U16) (dir : EngineDirection) (fn : Byte) (on : Bool) :
    (BuiltFrame (Util.LocoSpeed r uid v) 0x04 r 6 ∧ (Util.LocoSpeed r uid v).data.getLocid = uid ∧
      (Util.LocoSpeed r uid v).data.b4.toNat * 2 ^ 8 + (Util.LocoSpeed r uid v).data.b5.toNat = min v.toNat 1000) ∧
    (BuiltFrame (Util.LocoDirection r uid dir) 0x05 r 5 ∧ (Util.LocoDirection r uid dir).data.getLocid = uid ∧
      (Util.LocoDirection r uid dir).data.b4.toNat = dir.toNat % 2 ^ 8) ∧
    (BuiltFrame (Util.LocoFunction r uid fn on) 0x06 r 6 ∧ (Util.LocoFunction r uid fn on).data.getLocid = uid ∧
      (Util.LocoFunction r uid fn on).data.b4 = fn ∧ (Util.LocoFunction r uid fn on).data.b5.toNat = on.toNat) := by
  refine ⟨⟨builtFrame_intro (by decide) (header_raw _ r) rfl (by decide) rfl, (C02_roundtrip {} uid).1, ?_⟩,
    ⟨builtFrame_intro (by decide) (header_raw _ r) rfl (by decide) rfl, (C02_roundtrip {} uid).1, ?_⟩,
    ⟨builtFrame_intro (by decide) (header_raw _ r) rfl (by decide) rfl, (C02_roundtrip {} uid).1, rfl, ?_⟩⟩
  · have hv := v.isLt
    simp only [Util.LocoSpeed, kMaxEngineVelocity, GT.gt, BitVec.lt_def, BitVec.truncate_eq_setWidth, BitVec.toNat_setWidth,
      toNat_shr]
    split
    · next h => simp at h ⊢; omega
    · next h => simp at h; omega
  · simp [Util.LocoDirection]
  · cases on <;> rfl

/-- Turnout commands. -/
theorem C10_turnout (r : Bool) (a : MachineTurnoutAddress) (dir : TurnoutDirection) (pow : Bool) :
    BuiltFrame (Util.Turnout r a dir pow) 0x0B r 6 ∧ (Util.Turnout r a dir pow).data.getLocid = a.addr ∧
    (Util.Turnout r a dir pow).data.b4 = dir ∧ (Util.Turnout r a dir pow).data.b5.toNat = pow.toNat := by
  refine ⟨builtFrame_intro (by decide) (header_raw _ r) rfl (by decide) ?_, (C02_roundtrip {} a.addr).1, rfl, ?_⟩
  · cases pow <;> rfl
  · cases pow <;> rfl

/-- System commands. Stop, go and halt address all devices (loc-id 0). -/
theorem C10_system (r : Bool) (a : MachineLocomotiveAddress) :
    (BuiltFrame (Util.System_Stop r) 0x00 r 5 ∧ (Util.System_Stop r).data.bytes.take 5 = [0#8, 0#8, 0#8, 0#8, 0x00#8]) ∧
    (BuiltFrame (Util.System_Go r) 0x00 r 5 ∧ (Util.System_Go r).data.bytes.take 5 = [0#8, 0#8, 0#8, 0#8, 0x01#8]) ∧
    (BuiltFrame (Util.System_Halt r) 0x00 r 5 ∧ (Util.System_Halt r).data.bytes.take 5 = [0#8, 0#8, 0#8, 0#8, 0x02#8]) ∧
    (BuiltFrame Util.System_GetStatus 0x00 false 4 ∧ Util.System_GetStatus.data.bytes.take 4 = [0#8, 0#8, 0#8, 0#8]) ∧
    (BuiltFrame (Util.System_LocoEmStop r a) 0x00 r 5 ∧ (Util.System_LocoEmStop r a).data.getLocid = a.addr ∧
      (Util.System_LocoEmStop r a).data.b4 = 0x03#8) := by
  refine ⟨⟨builtFrame_intro (by decide) (header_raw _ r) rfl (by decide) rfl, rfl⟩,
    ⟨builtFrame_intro (by decide) (header_raw _ r) rfl (by decide) rfl, rfl⟩,
    ⟨builtFrame_intro (by decide) (header_raw _ r) rfl (by decide) rfl, rfl⟩,
    ⟨builtFrame_intro (by decide) rfl rfl (by decide) rfl, rfl⟩,
    ⟨builtFrame_intro (by decide) (header_raw _ r) rfl (by decide) rfl, (C02_roundtrip {} a.addr).1, rfl⟩⟩

/-- The first frame of a config data stream: length big-endian, then checksum big-endian. -/
theorem C10_stream_first (n : U32) (crc : U16) :
    let f := Util.Config_Data_Stream_First n crc
    BuiltFrame f 0x21 false 6 ∧ f.data.getLocid = n ∧ f.data.b4.toNat * 2 ^ 8 + f.data.b5.toNat = crc.toNat := by
  refine ⟨builtFrame_intro (by decide) rfl rfl (by decide) rfl, ?_, ?_⟩
  · simp only [Util.Config_Data_Stream_First, Data.getLocid]; bits
  · have := crc.isLt
    have hm : (crc &&& 0xFF#16).toNat = crc.toNat % 2 ^ 8 := toNat_mask _ 8 _ rfl
    simp only [Util.Config_Data_Stream_First, BitVec.truncate_eq_setWidth, BitVec.toNat_setWidth, toNat_shr, hm]
    omega

/-- A data frame of a config data stream carries exactly the first eight bytes of its argument. -/
theorem C10_stream_data (text : List Byte) (h : 8 ≤ text.length) :
    ∃ f, Util.Config_Data_Stream_Data text = .ok f ∧ BuiltFrame f 0x21 false 8 ∧ f.data.bytes.take 8 = text.take 8 := by
  obtain ⟨t, u, hu, hl⟩ : ∃ t u, text = t ++ u ∧ t.length = 8 :=
    ⟨text.take 8, text.drop 8, (List.take_append_drop 8 text).symm, by simp; omega⟩
  match t, hl with
  | [c0, c1, c2, c3, c4, c5, c6, c7], _ =>
    subst hu
    refine ⟨{ id := Identifier.mk' kConfigDataStream 0#16,
              data := { dlc := 8#8, b0 := c0, b1 := c1, b2 := c2, b3 := c3, b4 := c4, b5 := c5, b6 := c6, b7 := c7 } },
      ?_, builtFrame_intro (by decide) rfl rfl (by decide) rfl, rfl⟩
    simp [Util.Config_Data_Stream_Data, CanDataMaxLength, poke, Data.bytes, Data.withBytes, bind, Except.bind]

private theorem nine (l : List Byte) (h : l.length = 9) (d : Data) : (d.withBytes l).bytes = l := by
  match l, h with
  | [_, _, _, _, _, _, _, _, _], _ => rfl

/-- A config data request carries its text, padded with zeros, and the length of the text. -/
theorem C10_request_partial (text rest : List Byte) (hn : NoNul text) (h : text.length ≤ 8) :
    ∃ f, Util.Request_Config_Data (text ++ 0#8 :: rest) = .ok f ∧ BuiltFrame f 0x20 false text.length ∧
      f.data.bytes.take text.length = text := by
  have hb : ({ dlc := Util.limitToCANDataLength (BitVec.ofNat 8 text.length) } : Data).bytes = List.replicate 9 0#8 := rfl
  have hl : (text.take 9 ++ List.replicate (9 - text.length) 0#8 : List Byte).length = 9 := by simp; omega
  have ht : (text.take 9 : List Byte) = text := List.take_of_length_le (by omega)
  refine ⟨_, by
    simp only [Util.Request_Config_Data, strlen_eq text rest hn, bind, Except.bind, Util.Request_Config_Data_Len,
      Data.kDataBufferLength, CanDataMaxLength]
    rw [strncpy_eq _ _ text rest hn (by rw [hb]; simp)], ?_, ?_⟩
  · refine builtFrame_intro (by decide) rfl ?_ h ?_
    · simp only [Data.withBytes, Util.limitToCANDataLength, GT.gt, BitVec.lt_def, BitVec.toNat_ofNat]
      rw [if_neg (by omega)]
      simp; omega
    · simp only [hb]
      rw [List.drop_replicate, nine _ (by simpa using hl), ht]
      simp
  · simp only [hb]
    rw [List.drop_replicate, nine _ (by simpa using hl), ht]
    simp

/-- The form with an explicit length: the length is cut to 8, the text to 9 bytes (one more than the bus carries). -/
theorem C10_request_len (text rest : List Byte) (hn : NoNul text) (len : Byte) :
    ∃ f, Util.Request_Config_Data_Len (text ++ 0#8 :: rest) len = .ok f ∧ f.id.raw.toNat = 0x20 * 2 ^ 17 ∧
      f.data.dlc.toNat = min len.toNat 8 ∧ f.data.bytes = text.take 9 ++ List.replicate (9 - text.length) 0#8 := by
  have hb : ({ dlc := Util.limitToCANDataLength len } : Data).bytes = List.replicate 9 0#8 := rfl
  have hl : (text.take 9 ++ List.replicate (9 - text.length) 0#8 : List Byte).length = 9 := by simp; omega
  refine ⟨_, by
    simp only [bind, Except.bind, Util.Request_Config_Data_Len, Data.kDataBufferLength, CanDataMaxLength]
    rw [strncpy_eq _ _ text rest hn (by rw [hb]; simp)], rfl, ?_, ?_⟩
  · simp only [Data.withBytes, Util.limitToCANDataLength, GT.gt, BitVec.lt_def, BitVec.toNat_ofNat]
    split <;> simp at * <;> omega
  · simp only [hb]
    rw [List.drop_replicate, nine _ (by simpa using hl)]
    simp

/-- Non-vacuity: a velocity above the limit is clamped; a request text of four characters. -/
example : (Util.LocoSpeed false 0x4005#32 2000#16).data.bytes = [0#8, 0#8, 0x40#8, 5#8, 3#8, 0xE8#8, 0#8, 0#8, 0#8] ∧
    (Util.Request_Config_Data (lit "loks")).map (fun f => (f.id.raw, f.data.dlc, f.data.bytes)) =
      .ok (0x400000#32, 4#8, str "loks" ++ [0#8, 0#8, 0#8, 0#8, 0#8]) := by decide

end RR32
