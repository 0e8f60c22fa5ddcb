import Verif.Props.Send

/-! # C18, C19: what is sent is what is received -/

set_option autoImplicit false

namespace RR32

/-! ## C18 -/

/-- Velocity: reported with the engine's uid, limited to 1000. -/
theorem C18_velocity (s r : Station) (tx eng : Nat) (htx : s.callbacks.tx = some tx) (hr : r.callbacks.engine = some eng)
    (processing : Bool) (e : LocomotiveData) (v : U16) :
    ∃ f, s.SendEngineVelocity e v = .ok [.tx tx f] ∧
      r.HandlePacket processing f = .ok [.setLocoVelocity eng e.uid (BitVec.ofNat 16 (min v.toNat 1000))] := by
  obtain ⟨hb, hl, hv⟩ := (C10_loco false e.uid v 0#32 0#8 false).1
  have hs := setHash_built hb s.senderHash
  rw [show 2 ^ 8 = 256 from rfl] at hv
  refine ⟨_, by simp only [Station.SendEngineVelocity, Station.SendPacket, Station.txSend, htx]; rfl, ?_⟩
  rw [HandlePacket_eq]
  simp [Spec.needsEngine, Spec.dumped, Spec.reaction, hs.commandOf, hb.length, hr, Spec.toward, ← uidOf_eq, hl, hv]

/-- Direction: FORWARD, REVERSE and CHANGE arrive as they are, with the engine's uid; no other direction is sent. -/
theorem C18_direction (s r : Station) (tx eng : Nat) (htx : s.callbacks.tx = some tx) (hr : r.callbacks.engine = some eng)
    (processing : Bool) (e : LocomotiveData) (dir : EngineDirection) :
    (dir = EngineDirection.FORWARD ∨ dir = EngineDirection.REVERSE →
      ∃ f, s.SendEngineDirection e dir = .ok [.tx tx f] ∧ r.HandlePacket processing f = .ok [.setLocoDirection eng e.uid dir]) ∧
    (dir = EngineDirection.CHANGE_DIRECTION →
      ∃ f, s.SendEngineDirection e dir = .ok [.tx tx f] ∧ r.HandlePacket processing f = .ok [.changeLocoDirection eng e.uid]) ∧
    (dir ≠ EngineDirection.FORWARD → dir ≠ EngineDirection.REVERSE → dir ≠ EngineDirection.CHANGE_DIRECTION →
      s.SendEngineDirection e dir = .ok []) := by
  refine ⟨fun h => ?_, fun h => ?_, fun h1 h2 h3 => by simp [Station.SendEngineDirection, h1, h2, h3]⟩
  · rcases h with h | h
    · subst h
      obtain ⟨hb, hl, hv⟩ := (C10_loco false e.uid 0#16 EngineDirection.FORWARD 0#8 false).2.1
      have hs := setHash_built hb s.senderHash
      refine ⟨_, by
        simp only [Station.SendEngineDirection, Station.SendPacket, Station.txSend, htx]
        rw [if_pos (by simp)], ?_⟩
      have h4 : (Util.LocoDirection false e.uid EngineDirection.FORWARD).data.b4.toNat = 1 := hv
      rw [HandlePacket_eq]
      simp [Spec.needsEngine, Spec.dumped, Spec.reaction, hs.commandOf, hb.length, hr, Spec.toward, ← uidOf_eq, hl, h4]
    · subst h
      obtain ⟨hb, hl, hv⟩ := (C10_loco false e.uid 0#16 EngineDirection.REVERSE 0#8 false).2.1
      have hs := setHash_built hb s.senderHash
      refine ⟨_, by
        simp only [Station.SendEngineDirection, Station.SendPacket, Station.txSend, htx]
        rw [if_pos (by simp)], ?_⟩
      have h4 : (Util.LocoDirection false e.uid EngineDirection.REVERSE).data.b4.toNat = 2 := hv
      rw [HandlePacket_eq]
      simp [Spec.needsEngine, Spec.dumped, Spec.reaction, hs.commandOf, hb.length, hr, Spec.toward, ← uidOf_eq, hl, h4]
  · subst h
    obtain ⟨hb, hl, hv⟩ := (C10_loco false e.uid 0#16 EngineDirection.CHANGE_DIRECTION 0#8 false).2.1
    have hs := setHash_built hb s.senderHash
    refine ⟨_, by
      simp only [Station.SendEngineDirection, Station.SendPacket, Station.txSend, htx]
      rw [if_pos (by simp)], ?_⟩
    have h4 : (Util.LocoDirection false e.uid EngineDirection.CHANGE_DIRECTION).data.b4.toNat = 3 := hv
    rw [HandlePacket_eq]
    simp [Spec.needsEngine, Spec.dumped, Spec.reaction, hs.commandOf, hb.length, hr, Spec.toward, ← uidOf_eq, hl, h4]

/-- Function: number and value arrive as they are, for every number. -/
theorem C18_function (s r : Station) (tx eng : Nat) (htx : s.callbacks.tx = some tx) (hr : r.callbacks.engine = some eng)
    (processing : Bool) (e : LocomotiveData) (fn : Byte) (on : Bool) :
    ∃ f, s.SendEngineFunction e fn on = .ok [.tx tx f] ∧
      r.HandlePacket processing f = .ok [.setLocoFunction eng e.uid fn on] := by
  obtain ⟨hb, hl, h4, h5⟩ := (C10_loco false e.uid 0#16 0#32 fn on).2.2
  have hs := setHash_built hb s.senderHash
  refine ⟨_, by simp only [Station.SendEngineFunction, Station.SendPacket, Station.txSend, htx]; rfl, ?_⟩
  rw [HandlePacket_eq]
  simp only [Spec.needsEngine, Spec.dumped, Spec.reaction, hs.commandOf, hb.length, hr, Spec.toward, ← uidOf_eq, hl, h4, h5]
  cases on <;> simp

/-- GO and STOP arrive as requests. -/
theorem C18_system (s r : Station) (tx sys : Nat) (htx : s.callbacks.tx = some tx) (hr : r.callbacks.system = some sys)
    (processing : Bool) :
    (∃ f, s.SendSystemGo = .ok [.tx tx f] ∧ r.HandlePacket processing f = .ok [.setSystemState sys true false]) ∧
    (∃ f, s.SendSystemStop = .ok [.tx tx f] ∧ r.HandlePacket processing f = .ok [.setSystemState sys false false]) := by
  constructor
  · refine ⟨_, by simp only [Station.SendSystemGo, Station.txSend, htx]; rfl, ?_⟩
    have hs : SentFrame { id := Identifier.mk' kSystemCommand s.senderHash, data := { dlc := 5#8, b4 := kSubcommandSystemGo } }
      s.senderHash 0x00 5 := sentFrame_intro (by decide) (C01_construct _ _) rfl (by decide)
    have hq := hs.isResponse
    rw [isResponse_eq] at hq
    rw [HandlePacket_eq]
    simp [Spec.needsEngine, Spec.dumped, Spec.reaction, hs.commandOf, hs.length, hr, Spec.toward, hq, show kSubcommandSystemGo.toNat = 1 from rfl]
  · refine ⟨_, by simp only [Station.SendSystemStop, Station.txSend, htx]; rfl, ?_⟩
    have hs : SentFrame { id := Identifier.mk' kSystemCommand s.senderHash, data := { dlc := 5#8, b4 := kSubcommandSystemStop } }
      s.senderHash 0x00 5 := sentFrame_intro (by decide) (C01_construct _ _) rfl (by decide)
    have hq := hs.isResponse
    rw [isResponse_eq] at hq
    rw [HandlePacket_eq]
    simp [Spec.needsEngine, Spec.dumped, Spec.reaction, hs.commandOf, hs.length, hr, Spec.toward, hq, show kSubcommandSystemStop.toNat = 0 from rfl]

/-- Emergency stop: reported as velocity 0 for the engine's uid. -/
theorem C18_emergency_stop (s r : Station) (tx eng : Nat) (htx : s.callbacks.tx = some tx) (hr : r.callbacks.engine = some eng)
    (processing : Bool) (e : LocomotiveData) :
    ∃ f, s.SendEmergencyStop e = .ok [.tx tx f] ∧ r.HandlePacket processing f = .ok [.setLocoVelocity eng e.uid 0#16] := by
  refine ⟨_, by simp only [Station.SendEmergencyStop, Station.txSend, htx]; rfl, ?_⟩
  generalize hg : SystemMessage.setLocid _ _ = p
  have h4 : p.b4.toNat = 3 := by rw [← hg]; rfl
  have hl : p.getLocid = e.uid := by rw [← hg]; exact (C02_roundtrip _ e.uid).1
  have hd : p.dlc.toNat = 5 := by rw [← hg]; rfl
  have hs : SentFrame { id := Identifier.mk' kSystemCommand s.senderHash, data := p } s.senderHash 0x00 5 :=
    sentFrame_intro (by decide) (C01_construct _ _) hd (by decide)
  rw [HandlePacket_eq]
  simp [Spec.needsEngine, Spec.dumped, Spec.reaction, hs.commandOf, hd, hr, Spec.toward, ← uidOf_eq, hl, h4]

/-- Accessory command: address with the protocol's tag, direction and power arrive, as a request. -/
theorem C18_accessory (s r : Station) (tx acc : Nat) (htx : s.callbacks.tx = some tx) (hr : r.callbacks.accessory = some acc)
    (processing : Bool) (a : MachineTurnoutAddress) (p : RailProtocol) (dir : TurnoutDirection) (power : Byte) :
    ∃ f, s.SendAccessoryPacket a p dir power = .ok [.tx tx f] ∧
      r.HandlePacket processing f = .ok [.onAccessoryPacket acc f.data false] ∧
      (TurnoutPacket.getLocid f.data).addr.toNat = a.addr.toNat ||| Spec.accessoryStart p ∧
      TurnoutPacket.getDirection f.data = dir ∧ (TurnoutPacket.getPower f.data = true ↔ power ≠ 0#8) ∧
      SentFrame f s.senderHash 0x0B 6 ∧ f.data.bytes.drop 6 = [0#8, 0#8, 0#8] := by
  refine ⟨_, by simp only [Station.SendAccessoryPacket, Station.txSend, htx]; rfl, ?_⟩
  have hs : ∀ d : Data, d.dlc.toNat = 6 → SentFrame { id := Identifier.mk' kAccessorySwitch s.senderHash, data := d }
      s.senderHash 0x0B 6 := fun d hd => sentFrame_intro (by decide) (C01_construct _ _) hd (by decide)
  have hs' := hs (TurnoutPacket.setPower (TurnoutPacket.setDirection (TurnoutPacket.setLocid (TurnoutPacket.initData {})
    (a.or (getAccessoryLocIdMask p))) dir) (power != 0#8)) rfl
  have hq := hs'.isResponse
  rw [isResponse_eq] at hq
  refine ⟨?_, ?_, rfl, ?_, hs', rfl⟩
  · rw [HandlePacket_eq]
    simp [Spec.needsEngine, Spec.dumped, Spec.reaction, hs'.commandOf, hs'.length, hr, Spec.toward, hq]
  · have e : (TurnoutPacket.setPower (TurnoutPacket.setDirection (TurnoutPacket.setLocid (TurnoutPacket.initData {})
      (a.or (getAccessoryLocIdMask p))) dir) (power != 0#8)).getLocid = a.addr ||| (getAccessoryLocIdMask p).addr :=
      (C02_roundtrip {} _).1
    show (TurnoutPacket.getLocid _).addr.toNat = _
    simp only [TurnoutPacket.getLocid]
    rw [e, BitVec.toNat_or]
    cases p <;> rfl
  · by_cases h : power = 0#8
    · subst h; simp [TurnoutPacket.getPower, TurnoutPacket.setPower]
    · simp [TurnoutPacket.getPower, TurnoutPacket.setPower, h]

/-- Non-vacuity: velocity 65535 is reported as 1000. -/
example : ∃ f, ({ senderHash := 0x30B#16, callbacks := { tx := some 1 } } : Station).SendEngineVelocity { uid := 0x4005#32 } 65535#16
      = .ok [.tx 1 f] ∧
    ({ callbacks := { engine := some 7 } } : Station).HandlePacket true f = .ok [.setLocoVelocity 7 0x4005#32 1000#16] :=
  C18_velocity _ _ 1 7 rfl rfl true _ _

/-! ## C19 -/

/-- The frame an accessory command transmits says the requested protocol and number, for every protocol but UNKNOWN and every machine
address below 1024, and for no other address.
Partial: the claim has no bound on the address and includes UNKNOWN; see `C19_unknown` and `C19_negation`. -/
theorem C19_accessory_partial (s : Station) (tx : Nat) (htx : s.callbacks.tx = some tx)
    (a : MachineTurnoutAddress) (p : RailProtocol) (hp : p ≠ .UNKNOWN) (dir : TurnoutDirection) (power : Byte) :
    ∃ f, s.SendAccessoryPacket a p dir power = .ok [.tx tx f] ∧
      ((TurnoutPacket.getRailProtocol f.data = Spec.accessoryFamily p ∧ (TurnoutPacket.getLocid f.data).getNumericAddress = a) ↔
        a.addr.toNat < 2 ^ 10) := by
  obtain ⟨f, hf, -, hl, -⟩ := C18_accessory s { callbacks := { accessory := some 0 } } tx 0 htx rfl false a p dir power
  refine ⟨f, hf, ?_⟩
  have hn : (TurnoutPacket.getLocid f.data).getNumericAddress.addr.toNat = (TurnoutPacket.getLocid f.data).addr.toNat % 2 ^ 10 :=
    toNat_mask _ 10 _ rfl
  constructor
  · rintro ⟨-, h⟩
    rw [h] at hn
    omega
  · intro h
    have hst : ∃ q, Spec.accessoryStart p = 2 ^ 10 * q := by
      cases p
      case UNKNOWN => exact absurd rfl hp
      case MM1 => exact ⟨12, rfl⟩
      case MM2 => exact ⟨12, rfl⟩
      case MFX => exact ⟨12, rfl⟩
      case SX1 => exact ⟨10, rfl⟩
      case SX2 => exact ⟨10, rfl⟩
      case DCC => exact ⟨14, rfl⟩
    obtain ⟨q, hq⟩ := hst
    have hsum : (TurnoutPacket.getLocid f.data).addr.toNat = a.addr.toNat + Spec.accessoryStart p := by
      rw [hl, hq, Nat.or_comm, ← Nat.two_pow_add_eq_or_of_lt h]; omega
    constructor
    · have e : f.data.getLocid.toNat = a.addr.toNat + Spec.accessoryStart p := hsum
      rw [getRailProtocol_eq, e]
      generalize a.addr.toNat = n at h
      unfold Spec.accessoryOwner Spec.accessoryFamily Spec.accessoryStart
      cases p <;> simp only [] <;> first
        | exact absurd rfl hp
        | (rw [if_neg (by omega), if_pos (by omega)])
        | (rw [if_pos (by omega)])
        | (rw [if_neg (by omega), if_neg (by omega), if_pos (by omega)])
    · have : (TurnoutPacket.getLocid f.data).getNumericAddress.addr = a.addr := by
        apply BitVec.eq_of_toNat_eq; omega
      cases h1 : (TurnoutPacket.getLocid f.data).getNumericAddress
      cases a
      simp_all

/-- For UNKNOWN the protocol is right for every address below 1024 but the number only for 768 to 1023. -/
theorem C19_unknown (s : Station) (tx : Nat) (htx : s.callbacks.tx = some tx)
    (a : MachineTurnoutAddress) (dir : TurnoutDirection) (power : Byte) (h : a.addr.toNat < 2 ^ 10) :
    ∃ f, s.SendAccessoryPacket a .UNKNOWN dir power = .ok [.tx tx f] ∧
      TurnoutPacket.getRailProtocol f.data = .UNKNOWN ∧
      ((TurnoutPacket.getLocid f.data).getNumericAddress = a ↔ 768 ≤ a.addr.toNat) := by
  obtain ⟨f, hf, -, hl, -⟩ := C18_accessory s { callbacks := { accessory := some 0 } } tx 0 htx rfl false a .UNKNOWN dir power
  have hn : (TurnoutPacket.getLocid f.data).getNumericAddress.addr.toNat = (TurnoutPacket.getLocid f.data).addr.toNat % 2 ^ 10 :=
    toNat_mask _ 10 _ rfl
  have ho : a.addr.toNat ||| 0xFF00 = 0xFF00 + a.addr.toNat % 2 ^ 8 := by
    have h1 : a.addr.toNat ||| 0xFF00 = a.addr.toNat % 2 ^ 8 ||| 0xFF00 := by
      apply Nat.eq_of_testBit_eq
      intro i
      simp only [Nat.testBit_or, Nat.testBit_mod_two_pow]
      by_cases hi : i < 8
      · simp [hi]
      · by_cases hi2 : i < 16
        · have : Nat.testBit 0xFF00 i = true := by
            have : i = 8 ∨ i = 9 ∨ i = 10 ∨ i = 11 ∨ i = 12 ∨ i = 13 ∨ i = 14 ∨ i = 15 := by omega
            rcases this with h | h | h | h | h | h | h | h <;> subst h <;> rfl
          simp [this]
        · have : a.addr.toNat.testBit i = false := Nat.testBit_lt_two_pow (Nat.lt_of_lt_of_le h (Nat.pow_le_pow_right (by decide) (by omega)))
          simp [this]
    rw [h1, Nat.or_comm, show 0xFF00 = 2 ^ 8 * 0xFF from rfl, ← Nat.two_pow_add_eq_or_of_lt (Nat.mod_lt _ (by decide))]
  have e : (TurnoutPacket.getLocid f.data).addr.toNat = 0xFF00 + a.addr.toNat % 2 ^ 8 := hl.trans ho
  refine ⟨f, hf, ?_, ?_⟩
  · rw [getRailProtocol_eq]
    have e' : f.data.getLocid.toNat = 0xFF00 + a.addr.toNat % 2 ^ 8 := e
    rw [e']
    unfold Spec.accessoryOwner
    rw [if_neg (by omega), if_neg (by omega), if_neg (by omega)]
  · constructor
    · intro h2; rw [h2] at hn; omega
    · intro h2
      have : (TurnoutPacket.getLocid f.data).getNumericAddress.addr = a.addr := by
        apply BitVec.eq_of_toNat_eq; omega
      cases h1 : (TurnoutPacket.getLocid f.data).getNumericAddress
      cases a
      simp_all

/-- The claim is false for addresses from 1024 on: address 2048 sent as MM2 is transmitted as a DCC address. -/
theorem C19_negation : ∃ f, ({ callbacks := { tx := some 1 } } : Station).SendAccessoryPacket ⟨2048#32⟩ .MM2 TurnoutDirection.RED 1#8
      = .ok [.tx 1 f] ∧ TurnoutPacket.getRailProtocol f.data = .DCC ∧
    (TurnoutPacket.getLocid f.data).getNumericAddress = ⟨0#32⟩ := ⟨_, rfl, by decide, by decide⟩

/-- Non-vacuity: address 5 as DCC. -/
example : ∃ f, ({ callbacks := { tx := some 1 } } : Station).SendAccessoryPacket ⟨5#32⟩ .DCC TurnoutDirection.RED 1#8
      = .ok [.tx 1 f] ∧ TurnoutPacket.getRailProtocol f.data = .DCC ∧
    (TurnoutPacket.getLocid f.data).getNumericAddress = ⟨5#32⟩ := ⟨_, rfl, by decide, by decide⟩

end RR32
