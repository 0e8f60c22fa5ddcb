import Verif.Proofs.Bits
import Verif.Spec.Protocol
import Verif.Model.Util
import Verif.Model.Locomotive

/-! # C05, C06, C07, C60: addresses -/

set_option autoImplicit false

namespace RR32

/-! ## C05 -/

/-- Human and machine addresses convert back and forth without loss, for turnouts and locomotives. -/
theorem C05_roundtrip (x : U32) :
    HumanTurnoutAddress.ofMachine (MachineTurnoutAddress.ofHuman ⟨x⟩) = ⟨x⟩ ∧
    MachineTurnoutAddress.ofHuman (HumanTurnoutAddress.ofMachine ⟨x⟩) = ⟨x⟩ ∧
    HumanLocomotiveAddress.ofMachine (MachineLocomotiveAddress.ofHuman ⟨x⟩) = ⟨x⟩ ∧
    MachineLocomotiveAddress.ofHuman (HumanLocomotiveAddress.ofMachine ⟨x⟩) = ⟨x⟩ := by
  simp only [HumanTurnoutAddress.ofMachine, MachineTurnoutAddress.ofHuman, HumanLocomotiveAddress.ofMachine,
    MachineLocomotiveAddress.ofHuman, BitVec.sub_add_cancel, BitVec.add_sub_cancel, and_self]

/-- Machine addresses are one below human addresses; human address 0 wraps around. -/
theorem C05_offset (x : U32) :
    (1 ≤ x.toNat → (MachineTurnoutAddress.ofHuman ⟨x⟩).addr.toNat = x.toNat - 1 ∧
      (MachineLocomotiveAddress.ofHuman ⟨x⟩).addr.toNat = x.toNat - 1) ∧
    (x.toNat < 2 ^ 32 - 1 → (HumanTurnoutAddress.ofMachine ⟨x⟩).addr.toNat = x.toNat + 1 ∧
      (HumanLocomotiveAddress.ofMachine ⟨x⟩).addr.toNat = x.toNat + 1) ∧
    (MachineTurnoutAddress.ofHuman ⟨0#32⟩).addr.toNat = 2 ^ 32 - 1 ∧
    (MachineLocomotiveAddress.ofHuman ⟨0#32⟩).addr.toNat = 2 ^ 32 - 1 := by
  have := x.isLt
  refine ⟨fun h => ?_, fun h => ?_, by decide, by decide⟩
  · simp only [MachineTurnoutAddress.ofHuman, MachineLocomotiveAddress.ofHuman, BitVec.toNat_sub, BitVec.toNat_ofNat]
    omega
  · simp only [HumanTurnoutAddress.ofMachine, HumanLocomotiveAddress.ofMachine, BitVec.toNat_add, BitVec.toNat_ofNat]
    omega

/-- The human address shown for a turnout packet is the packet's address plus one. -/
theorem C05_packet (d : Data) (h : d.getLocid.toNat < 2 ^ 32 - 1) :
    (TurnoutPacket.AddressAsHumanValue d).addr.toNat = d.getLocid.toNat + 1 := by
  simp only [TurnoutPacket.AddressAsHumanValue]
  exact ((C05_offset d.getLocid).2.1 h).1

/-- Non-vacuity. -/
example : MachineTurnoutAddress.ofHuman ⟨100#32⟩ = ⟨99#32⟩ ∧ HumanLocomotiveAddress.ofMachine ⟨0xFFFFFFFF#32⟩ = ⟨0#32⟩ := by
  decide

/-! ## C06 -/

theorem turnout_setProtocol_toNat (a : MachineTurnoutAddress) (p : RailProtocol) (hp : p ≠ .UNKNOWN) :
    (a.setProtocol p).addr.toNat = a.addr.toNat % 2 ^ 10 + Spec.accessoryStart p := by
  simp only [MachineTurnoutAddress.setProtocol, MachineTurnoutAddress.or, MachineTurnoutAddress.getNumericAddress]
  have hm : (a.addr &&& 0x03FF#32).toNat = a.addr.toNat % 2 ^ 10 := toNat_mask _ 10 _ rfl
  have hl : (a.addr &&& 0x03FF#32).toNat < 2 ^ 10 := by rw [hm]; omega
  cases p
  case UNKNOWN => exact absurd rfl hp
  case MM1 => rw [toNat_or_low _ _ 10 12 hl rfl, hm]; rfl
  case MM2 => rw [toNat_or_low _ _ 10 12 hl rfl, hm]; rfl
  case MFX => rw [toNat_or_low _ _ 10 12 hl rfl, hm]; rfl
  case SX1 => rw [toNat_or_low _ _ 10 10 hl rfl, hm]; rfl
  case SX2 => rw [toNat_or_low _ _ 10 10 hl rfl, hm]; rfl
  case DCC => rw [toNat_or_low _ _ 10 14 hl rfl, hm]; rfl

theorem turnout_setUnknown_toNat (a : MachineTurnoutAddress) :
    (a.setProtocol .UNKNOWN).addr.toNat = a.addr.toNat % 2 ^ 8 + 0xFF00 := by
  simp only [MachineTurnoutAddress.setProtocol, MachineTurnoutAddress.or, MachineTurnoutAddress.getNumericAddress,
    getAccessoryLocIdMask]
  have e : (a.addr &&& 0x03FF#32) ||| 0xFF00#32 = (a.addr &&& 0xFF#32) ||| 0xFF00#32 := by bits
  have hm : (a.addr &&& 0xFF#32).toNat = a.addr.toNat % 2 ^ 8 := toNat_mask _ 8 _ rfl
  rw [e, toNat_or_low _ _ 8 255 (by rw [hm]; omega) rfl, hm]
  rfl

/-- `getRailProtocol` is the owner of the address range the packet's address lies in. -/
theorem getRailProtocol_eq (d : Data) : TurnoutPacket.getRailProtocol d = Spec.accessoryOwner d.getLocid.toNat := by
  simp only [TurnoutPacket.getRailProtocol, Spec.accessoryOwner, MachineTurnoutAddress.le, TurnoutPacket.getLocid,
    kSX1AccessoryAddrStart, kSX1AccessoryAddrStop, kMMAccessoryAddrStart, kMMAccessoryAddrStop, kDCCAccessoryAddrStart,
    kDCCccessoryAddrStop, Bool.and_eq_true, decide_eq_true_eq, BitVec.le_def, BitVec.toNat_ofNat]

/-- Tagging an address with any protocol other than UNKNOWN: the number survives in the low 10 bits, nothing else does, the packet
reports the protocol's family, doing it again changes nothing, and it overrides any earlier tag other than UNKNOWN.
Partial: for UNKNOWN and after UNKNOWN the claim is false, see `C06_unknown` and `C06_unknown_leaks`. -/
theorem C06_tagging_partial (a : MachineTurnoutAddress) (p q : RailProtocol) (hp : p ≠ .UNKNOWN) (hq : q ≠ .UNKNOWN) (d : Data) :
    (a.setProtocol p).addr.toNat = a.addr.toNat % 2 ^ 10 + Spec.accessoryStart p ∧
    (a.setProtocol p).getNumericAddress.addr.toNat = a.addr.toNat % 2 ^ 10 ∧
    TurnoutPacket.getRailProtocol (TurnoutPacket.setLocid d (a.setProtocol p)) = Spec.accessoryFamily p ∧
    (a.setProtocol p).setProtocol p = a.setProtocol p ∧
    (a.setProtocol q).setProtocol p = a.setProtocol p := by
  have h := turnout_setProtocol_toNat a p hp
  have hs : ∀ r : RailProtocol, r ≠ .UNKNOWN → Spec.accessoryStart r % 2 ^ 10 = 0 := by intro r hr; cases r <;> first | rfl | exact absurd rfl hr
  have hlast : ∀ r : RailProtocol, r ≠ .UNKNOWN → (a.setProtocol r).setProtocol p = a.setProtocol p := by
    intro r hr
    have e1 := turnout_setProtocol_toNat (a.setProtocol r) p hp
    have e2 := turnout_setProtocol_toNat a r hr
    have e3 := hs r hr
    have : ((a.setProtocol r).setProtocol p).addr = (a.setProtocol p).addr := by
      apply BitVec.eq_of_toNat_eq; omega
    cases h1 : (a.setProtocol r).setProtocol p
    cases h2 : a.setProtocol p
    simp_all
  refine ⟨h, ?_, ?_, hlast p hp, hlast q hq⟩
  · have hm : ((a.setProtocol p).getNumericAddress).addr.toNat = (a.setProtocol p).addr.toNat % 2 ^ 10 := toNat_mask _ 10 _ rfl
    have := hs p hp
    omega
  · rw [getRailProtocol_eq]
    have e : (TurnoutPacket.setLocid d (a.setProtocol p)).getLocid = (a.setProtocol p).addr := by
      simp only [TurnoutPacket.setLocid, Data.getLocid, Data.setLocid]; bits
    rw [e, h]
    have hlt : a.addr.toNat % 2 ^ 10 < 2 ^ 10 := Nat.mod_lt _ (by decide)
    generalize a.addr.toNat % 2 ^ 10 = n at hlt
    unfold Spec.accessoryOwner Spec.accessoryFamily Spec.accessoryStart
    cases p <;> simp only [] <;> first
      | exact absurd rfl hp
      | (rw [if_neg (by omega), if_pos (by omega)])
      | (rw [if_pos (by omega)])
      | (rw [if_neg (by omega), if_neg (by omega), if_pos (by omega)])

/-- Tagging with UNKNOWN is reported as UNKNOWN and is idempotent. -/
theorem C06_unknown (a : MachineTurnoutAddress) (d : Data) :
    TurnoutPacket.getRailProtocol (TurnoutPacket.setLocid d (a.setProtocol .UNKNOWN)) = .UNKNOWN ∧
    (a.setProtocol .UNKNOWN).setProtocol .UNKNOWN = a.setProtocol .UNKNOWN ∧
    (a.setProtocol .UNKNOWN).addr.toNat = a.addr.toNat % 2 ^ 8 + 0xFF00 ∧
    (a.setProtocol .UNKNOWN).getNumericAddress.addr.toNat = a.addr.toNat % 2 ^ 8 + 0x300 := by
  have h := turnout_setUnknown_toNat a
  refine ⟨?_, ?_, h, ?_⟩
  · rw [getRailProtocol_eq]
    have e : (TurnoutPacket.setLocid d (a.setProtocol .UNKNOWN)).getLocid = (a.setProtocol .UNKNOWN).addr := by
      simp only [TurnoutPacket.setLocid, Data.getLocid, Data.setLocid]; bits
    rw [e, h]
    unfold Spec.accessoryOwner
    rw [if_neg (by omega), if_neg (by omega), if_neg (by omega)]
  · have h2 := turnout_setUnknown_toNat (a.setProtocol .UNKNOWN)
    have : ((a.setProtocol .UNKNOWN).setProtocol .UNKNOWN).addr = (a.setProtocol .UNKNOWN).addr := by
      apply BitVec.eq_of_toNat_eq; omega
    cases h1 : (a.setProtocol .UNKNOWN).setProtocol .UNKNOWN
    cases h2 : a.setProtocol .UNKNOWN
    simp_all
  · have hm : ((a.setProtocol .UNKNOWN).getNumericAddress).addr.toNat = (a.setProtocol .UNKNOWN).addr.toNat % 2 ^ 10 :=
      toNat_mask _ 10 _ rfl
    omega

/-- The claim is false for UNKNOWN: it keeps only the low 8 bits of the number, so that a later tag does not give the address
that tagging directly gives. This happens for exactly the addresses with bits 8 and 9 not both set. -/
theorem C06_unknown_leaks (a : MachineTurnoutAddress) (p : RailProtocol) (hp : p ≠ .UNKNOWN) :
    (a.setProtocol .UNKNOWN).setProtocol p = a.setProtocol p ↔ a.addr.toNat / 2 ^ 8 % 4 = 3 := by
  have e1 := turnout_setProtocol_toNat (a.setProtocol .UNKNOWN) p hp
  have e2 := turnout_setProtocol_toNat a p hp
  have e3 := turnout_setUnknown_toNat a
  constructor
  · intro h
    rw [h] at e1
    omega
  · intro h
    have : ((a.setProtocol .UNKNOWN).setProtocol p).addr = (a.setProtocol p).addr := by
      apply BitVec.eq_of_toNat_eq; omega
    cases h1 : (a.setProtocol .UNKNOWN).setProtocol p
    cases h2 : a.setProtocol p
    simp_all

/-- Non-vacuity, and a counterexample to the full claim: turnout 5 tagged UNKNOWN and then MM2 becomes turnout 0x305. -/
example : (⟨5#32⟩ : MachineTurnoutAddress).setProtocol .DCC = ⟨0x3805#32⟩ ∧
    ((⟨0x3805#32⟩ : MachineTurnoutAddress).setProtocol .MM2 = ⟨0x3005#32⟩) ∧
    ((⟨5#32⟩ : MachineTurnoutAddress).setProtocol .UNKNOWN).setProtocol .MM2 = ⟨0x3305#32⟩ := by decide

/-! ## C07 -/

/-- What `setProtocol` does to a locomotive address, for every protocol. -/
theorem loco_setProtocol_toNat (a : MachineLocomotiveAddress) (p : RailProtocol) :
    (a.setProtocol p).addr.toNat =
      match p with
      | .MM1 | .MM2 => a.addr.toNat % 2 ^ 10
      | .MFX => a.addr.toNat % 2 ^ 10 + 0x4000
      | .SX1 | .SX2 => a.addr.toNat % 2 ^ 10 + 0x0800
      | .DCC => a.addr.toNat % 2 ^ 10 + 0xC000
      | .UNKNOWN => a.addr.toNat % 2 ^ 8 + 0xFF00 := by
  simp only [MachineLocomotiveAddress.setProtocol, MachineLocomotiveAddress.or, MachineLocomotiveAddress.getNumericAddress]
  have hm : (a.addr &&& 0x03FF#32).toNat = a.addr.toNat % 2 ^ 10 := toNat_mask _ 10 _ rfl
  have hl : (a.addr &&& 0x03FF#32).toNat < 2 ^ 10 := by rw [hm]; omega
  cases p
  case UNKNOWN =>
    have e : (a.addr &&& 0x03FF#32) ||| 0xFF00#32 = (a.addr &&& 0xFF#32) ||| 0xFF00#32 := by bits
    have hm : (a.addr &&& 0xFF#32).toNat = a.addr.toNat % 2 ^ 8 := toNat_mask _ 8 _ rfl
    simp only [getLocomotiveLocIdMask]
    rw [e, toNat_or_low _ _ 8 255 (by rw [hm]; omega) rfl, hm]
    rfl
  case MM1 => rw [toNat_or_low _ _ 10 0 hl rfl, hm]; rfl
  case MM2 => rw [toNat_or_low _ _ 10 0 hl rfl, hm]; rfl
  case MFX => rw [toNat_or_low _ _ 10 16 hl rfl, hm]; rfl
  case SX1 => rw [toNat_or_low _ _ 10 2 hl rfl, hm]; rfl
  case SX2 => rw [toNat_or_low _ _ 10 2 hl rfl, hm]; rfl
  case DCC => rw [toNat_or_low _ _ 10 48 hl rfl, hm]; rfl

private theorem loco_ext {a b : MachineLocomotiveAddress} (h : a.addr.toNat = b.addr.toNat) : a = b := by
  cases a; cases b
  simp only [MachineLocomotiveAddress.mk.injEq]
  exact BitVec.eq_of_toNat_eq h

/-- Tagging a locomotive address: the low 10 bits survive, the result lies in the protocol's range, tagging again changes
nothing, and an earlier tag other than UNKNOWN is overridden.
Partial: excludes UNKNOWN (which overwrites bits 8 and 9) and SX2 (which is put into the SX1 range); the last part of the claim
holds only for the first 1024 addresses of a range, see `C07_in_range`. -/
theorem C07_tagging_partial (a : MachineLocomotiveAddress) (p q : RailProtocol) (hp : p ≠ .UNKNOWN) (hq : q ≠ .UNKNOWN) :
    (a.setProtocol p).addr.toNat % 2 ^ 10 = a.addr.toNat % 2 ^ 10 ∧
    (p ≠ .SX2 → (Spec.locoRange p).1 ≤ (a.setProtocol p).addr.toNat ∧ (a.setProtocol p).addr.toNat ≤ (Spec.locoRange p).2) ∧
    (p = .SX2 → 0x0800 ≤ (a.setProtocol p).addr.toNat ∧ (a.setProtocol p).addr.toNat ≤ 0x0BFF) ∧
    (a.setProtocol p).setProtocol p = a.setProtocol p ∧
    (a.setProtocol q).setProtocol p = a.setProtocol p := by
  have h := loco_setProtocol_toNat a p
  have h2 := loco_setProtocol_toNat (a.setProtocol p) p
  have h3 := loco_setProtocol_toNat (a.setProtocol q) p
  have h4 := loco_setProtocol_toNat a q
  have hlt := a.addr.isLt
  refine ⟨?_, ?_, ?_, ?_, ?_⟩
  · cases p <;> simp only [] at h <;> first | exact absurd rfl hp | omega
  · intro hs
    cases p <;> simp only [Spec.locoRange] at h ⊢ <;> first | exact absurd rfl hp | exact absurd rfl hs | omega
  · rintro rfl
    simp only [] at h
    omega
  · apply loco_ext
    cases p <;> simp only [] at h h2 <;> first | exact absurd rfl hp | omega
  · apply loco_ext
    cases q <;> simp only [] at h4 <;> first
      | exact absurd rfl hq
      | (cases p <;> simp only [] at h h3 <;> first | exact absurd rfl hp | omega)

/-- What UNKNOWN does instead: only the low 8 bits survive, and a later tag gives what tagging directly gives for exactly the addresses
with bits 8 and 9 set. -/
theorem C07_unknown (a : MachineLocomotiveAddress) (p : RailProtocol) :
    (a.setProtocol .UNKNOWN).addr.toNat = a.addr.toNat % 2 ^ 8 + 0xFF00 ∧
    (a.setProtocol .UNKNOWN).setProtocol .UNKNOWN = a.setProtocol .UNKNOWN ∧
    ((a.setProtocol .UNKNOWN).setProtocol p = a.setProtocol p ↔ p = .UNKNOWN ∨ a.addr.toNat / 2 ^ 8 % 4 = 3) := by
  have ext : ∀ x y : MachineLocomotiveAddress, x = y ↔ x.addr.toNat = y.addr.toNat := by
    rintro ⟨x⟩ ⟨y⟩
    exact ⟨fun h => by rw [h], fun h => congrArg _ (BitVec.eq_of_toNat_eq h)⟩
  have h1 := loco_setProtocol_toNat a .UNKNOWN
  have h2 := loco_setProtocol_toNat (a.setProtocol .UNKNOWN) .UNKNOWN
  have h3 := loco_setProtocol_toNat (a.setProtocol .UNKNOWN) p
  have h4 := loco_setProtocol_toNat a p
  rw [ext, ext]
  dsimp only at h1 h2
  refine ⟨h1, by omega, ?_⟩
  cases p <;> simp only [reduceCtorEq, false_or, true_or, iff_true] <;> dsimp only at h3 h4 <;> omega

/-- No address in the range of SX2 is left alone by SX2, whose tag is that of SX1. -/
theorem C07_sx2 (a : MachineLocomotiveAddress) (h : (Spec.locoRange .SX2).1 ≤ a.addr.toNat) : a.setProtocol .SX2 ≠ a := by
  intro e
  have h1 := loco_setProtocol_toNat a .SX2
  rw [e] at h1
  simp only [Spec.locoRange] at h
  dsimp only at h1
  omega

/-- The constants of the library give the documented ranges. -/
theorem C07_ranges :
    Spec.locoRange .MM1 = (kMMEngineFunctionAddrStart.toNat, kMMEngineFunctionAddrStop.toNat) ∧
    Spec.locoRange .MM2 = (kMMEngineFunctionAddrStart.toNat, kMMEngineFunctionAddrStop.toNat) ∧
    Spec.locoRange .SX1 = (kSX1AddrStart.toNat, kSX1AddrStop.toNat) ∧ Spec.locoRange .MFX = (kMFXAddrStart.toNat, kMFXAddrStop.toNat) ∧
    Spec.locoRange .SX2 = (kSX2AddrStart.toNat, kSX2AddrStop.toNat) ∧ Spec.locoRange .DCC = (kDCCAddrStart.toNat, kDCCAddrStop.toNat) ∧
    ∀ p q : RailProtocol, p ≠ .UNKNOWN → q ≠ .UNKNOWN → Spec.locoRange p ≠ Spec.locoRange q →
      (Spec.locoRange p).2 < (Spec.locoRange q).1 ∨ (Spec.locoRange q).2 < (Spec.locoRange p).1 := by
  refine ⟨rfl, rfl, rfl, rfl, rfl, rfl, ?_⟩
  intro p q
  cases p <;> cases q <;> decide

/-- The constants of the library are the map of all addresses, whose areas do not overlap; the areas of engines and of accessories that
the library uses are among them. -/
theorem C07_map :
    [(kMMEngineFunctionAddrStart, kMMEngineFunctionAddrStop), (kSX1AddrStart, kSX1AddrStop), (kMMEngineAddrStart, kMMEngineAddrStop),
      (kSX1AccessoryAddrStart, kSX1AccessoryAddrStop), (kMMAccessoryAddrStart, kMMAccessoryAddrStop),
      (kDCCAccessoryAddrStart, kDCCccessoryAddrStop), (kMFXAddrStart, kMFXAddrStop), (kSX2AddrStart, kSX2AddrStop),
      (kDCCAddrStart, kDCCAddrStop)].map (fun r => (r.1.toNat, r.2.toNat)) = Spec.addressMap ∧
    Spec.addressMap.Pairwise (fun a b => a.2 < b.1) ∧ (∀ r ∈ Spec.addressMap, r.1 < r.2) ∧
    (∀ p, p ≠ .UNKNOWN → Spec.locoRange p ∈ Spec.addressMap) ∧
    ∀ n, Spec.accessoryOwner n ≠ .UNKNOWN → ∃ r ∈ Spec.addressMap, r.1 ≤ n ∧ n ≤ r.2 := by
  refine ⟨rfl, by decide, by decide, fun p => by cases p <;> decide, fun n hn => ?_⟩
  unfold Spec.accessoryOwner at hn
  split at hn
  · rename_i h; exact ⟨(0x2800, 0x2BFF), by decide, h⟩
  · split at hn
    · rename_i h; exact ⟨(0x3000, 0x33FF), by decide, h⟩
    · split at hn
      · rename_i h; exact ⟨(0x3800, 0x3FFF), by decide, h⟩
      · exact absurd rfl hn

/-- `getUidMasked` gives the lower 16 bits of the UID; a tagged address is its own masked UID. -/
theorem C07_masked (l : LocomotiveData) (a : MachineLocomotiveAddress) (p : RailProtocol) :
    l.getUidMasked.toNat = l.uid.toNat % 2 ^ 16 ∧ (l.uid = (a.setProtocol p).addr → l.getUidMasked = l.uid) := by
  have h : l.getUidMasked.toNat = l.uid.toNat % 2 ^ 16 := toNat_mask _ 16 _ rfl
  refine ⟨h, fun e => BitVec.eq_of_toNat_eq ?_⟩
  rw [h, e]
  have h1 := loco_setProtocol_toNat a p
  cases p <;> dsimp only at h1 <;> omega

/-- The claim about addresses already in range, exactly: such an address is unchanged if and only if it is one of the first 1024
of its range. For MFX and DCC the ranges hold 16384 addresses; the other 15360 are moved. -/
theorem C07_in_range (a : MachineLocomotiveAddress) (p : RailProtocol) (hp : p ≠ .UNKNOWN) (hp2 : p ≠ .SX2)
    (h1 : (Spec.locoRange p).1 ≤ a.addr.toNat) (h2 : a.addr.toNat ≤ (Spec.locoRange p).2) :
    a.setProtocol p = a ↔ a.addr.toNat < (Spec.locoRange p).1 + 1024 := by
  have h := loco_setProtocol_toNat a p
  constructor
  · intro e
    rw [e] at h
    cases p <;> simp only [Spec.locoRange] at h h1 h2 ⊢ <;> first | exact absurd rfl hp | exact absurd rfl hp2 | omega
  · intro e
    apply loco_ext
    cases p <;> simp only [Spec.locoRange] at h h1 h2 e <;> first | exact absurd rfl hp | exact absurd rfl hp2 | omega

/-- Non-vacuity, and counterexamples to the full claim: DCC locomotive 3 tags as documented; DCC locomotive 2000 (0xC7D0) is
moved by tagging it DCC again; UNKNOWN destroys bits 8 and 9; SX2 goes to the SX1 range. -/
example : (⟨3#32⟩ : MachineLocomotiveAddress).setProtocol .DCC = ⟨0xC003#32⟩ ∧
    (⟨0xC7D0#32⟩ : MachineLocomotiveAddress).setProtocol .DCC = ⟨0xC3D0#32⟩ ∧
    ((⟨3#32⟩ : MachineLocomotiveAddress).setProtocol .UNKNOWN).setProtocol .DCC = ⟨0xC303#32⟩ ∧
    (⟨3#32⟩ : MachineLocomotiveAddress).setProtocol .SX2 = ⟨0x0803#32⟩ := by decide

/-! ## C60 -/

private theorem or_tag (x y : U32) (k q : Nat) (hx : x.toNat < 2 ^ k) (hy : y.toNat = 2 ^ k * q) :
    (x ||| y).toNat = y.toNat + x.toNat := by
  rw [toNat_or_low x y k q hx hy]; omega

/-- The turnout helpers place an address below the range size into the accessory range of their protocol. -/
theorem C60_turnout (x : U32) :
    (x.toNat < 1024 → (Util.MM2_Turnout x).addr.toNat = 0x3000 + x.toNat ∧ (Util.SX1_Turnout x).addr.toNat = 0x2800 + x.toNat ∧
      Spec.accessoryOwner (Util.MM2_Turnout x).addr.toNat = .MM1 ∧ Spec.accessoryOwner (Util.SX1_Turnout x).addr.toNat = .SX1) ∧
    (x.toNat < 2048 → (Util.DCC_Turnout x).addr.toNat = 0x3800 + x.toNat ∧
      Spec.accessoryOwner (Util.DCC_Turnout x).addr.toNat = .DCC) := by
  constructor
  · intro h
    have e1 : (Util.MM2_Turnout x).addr.toNat = 0x3000 + x.toNat := or_tag x _ 10 12 (by omega) rfl
    have e2 : (Util.SX1_Turnout x).addr.toNat = 0x2800 + x.toNat := or_tag x _ 10 10 (by omega) rfl
    refine ⟨e1, e2, ?_, ?_⟩
    · rw [e1]; unfold Spec.accessoryOwner; rw [if_neg (by omega), if_pos (by omega)]
    · rw [e2]; unfold Spec.accessoryOwner; rw [if_pos (by omega)]
  · intro h
    have e1 : (Util.DCC_Turnout x).addr.toNat = 0x3800 + x.toNat := or_tag x _ 11 7 (by omega) rfl
    refine ⟨e1, ?_⟩
    rw [e1]; unfold Spec.accessoryOwner; rw [if_neg (by omega), if_neg (by omega), if_pos (by omega)]

/-- The same helpers on address objects agree with those on numbers. -/
theorem C60_turnout_objects (a : MachineTurnoutAddress) :
    Util.MM2 a = Util.MM2_Turnout a.addr ∧ Util.DCC a = Util.DCC_Turnout a.addr ∧ Util.SX1 a = Util.SX1_Turnout a.addr :=
  ⟨rfl, rfl, rfl⟩

/-- The locomotive helpers: MM2 to 0x2000-0x23FF, SX1 to 0x0800-0x0BFF, MFX to 0x4000-0x7FFF, DCC to 0xC000-0xFFFF. -/
theorem C60_loco (x : U32) :
    (x.toNat < 1024 → (Util.MM2_Loco x).addr.toNat = 0x2000 + x.toNat ∧ (Util.SX1_Loco x).addr.toNat = 0x0800 + x.toNat) ∧
    (x.toNat < 16384 → (Util.DCC_Loco x).addr.toNat = 0xC000 + x.toNat ∧ (Util.MFX_Loco x).addr.toNat = 0x4000 + x.toNat) := by
  constructor
  · intro h
    exact ⟨or_tag x _ 10 8 (by omega) rfl, or_tag x _ 10 2 (by omega) rfl⟩
  · intro h
    exact ⟨or_tag x _ 14 3 (by omega) rfl, or_tag x _ 14 1 (by omega) rfl⟩

/-- The locomotive helpers on address objects agree with those on numbers. -/
theorem C60_loco_objects (a : MachineLocomotiveAddress) :
    Util.MM2L a = Util.MM2_Loco a.addr ∧ Util.DCCL a = Util.DCC_Loco a.addr ∧ Util.SX1L a = Util.SX1_Loco a.addr ∧
    Util.MFXL a = Util.MFX_Loco a.addr :=
  ⟨rfl, rfl, rfl, rfl⟩

/-- Helpers never touch the low bits, whatever the address; and they agree with `setProtocol` for turnouts below 1024. -/
theorem C60_low_bits (x : U32) :
    (Util.MM2_Turnout x).addr.toNat % 2 ^ 10 = x.toNat % 2 ^ 10 ∧ (Util.SX1_Turnout x).addr.toNat % 2 ^ 10 = x.toNat % 2 ^ 10 ∧
    (Util.DCC_Turnout x).addr.toNat % 2 ^ 11 = x.toNat % 2 ^ 11 ∧
    (Util.MM2_Loco x).addr.toNat % 2 ^ 10 = x.toNat % 2 ^ 10 ∧ (Util.SX1_Loco x).addr.toNat % 2 ^ 10 = x.toNat % 2 ^ 10 ∧
    (Util.DCC_Loco x).addr.toNat % 2 ^ 14 = x.toNat % 2 ^ 14 ∧ (Util.MFX_Loco x).addr.toNat % 2 ^ 14 = x.toNat % 2 ^ 14 ∧
    (x.toNat < 1024 → Util.MM2_Turnout x = (⟨x⟩ : MachineTurnoutAddress).setProtocol .MM2 ∧
      Util.SX1_Turnout x = (⟨x⟩ : MachineTurnoutAddress).setProtocol .SX1 ∧
      Util.DCC_Turnout x = (⟨x⟩ : MachineTurnoutAddress).setProtocol .DCC) := by
  have key : ∀ (m : U32) (k : Nat), m.toNat % 2 ^ k = 0 → (x ||| m).toNat % 2 ^ k = x.toNat % 2 ^ k := by
    intro m k hm
    rw [BitVec.toNat_or, Nat.or_mod_two_pow, hm, Nat.or_zero]
  refine ⟨key _ _ rfl, key _ _ rfl, key _ _ rfl, key _ _ rfl, key _ _ rfl, key _ _ rfl, key _ _ rfl, ?_⟩
  intro h
  have e : x &&& 0x3FF#32 = x := by
    apply BitVec.eq_of_toNat_eq
    rw [toNat_mask _ 10 _ rfl]; omega
  simp only [Util.MM2_Turnout, Util.SX1_Turnout, Util.DCC_Turnout, Util.MM2, Util.SX1, Util.DCC,
    MachineTurnoutAddress.setProtocol, MachineTurnoutAddress.getNumericAddress, e, getAccessoryLocIdMask, and_self]

/-- `DecoderBaseAddress` is the largest multiple of four not above the address. -/
theorem C60_decoder_base (x : U32) :
    (Util.DecoderBaseAddress x).addr.toNat = x.toNat / 4 * 4 ∧
    4 ∣ (Util.DecoderBaseAddress x).addr.toNat ∧ (Util.DecoderBaseAddress x).addr.toNat ≤ x.toNat ∧
    (∀ m, 4 ∣ m → m ≤ x.toNat → m ≤ (Util.DecoderBaseAddress x).addr.toNat) := by
  have e : x &&& ~~~3#32 = (x >>> 2) <<< 2 := by bits
  have hx := x.isLt
  have h : (Util.DecoderBaseAddress x).addr.toNat = x.toNat / 4 * 4 := by
    simp only [Util.DecoderBaseAddress]
    rw [e, toNat_shl, toNat_shr]; omega
  refine ⟨h, ?_, ?_, ?_⟩
  · omega
  · omega
  · intro m hm hle; omega

/-- Non-vacuity. -/
example : Util.DCC_Turnout 2047#32 = ⟨0x3FFF#32⟩ ∧ Util.MFX_Loco 16383#32 = ⟨0x7FFF#32⟩ ∧
    Util.DecoderBaseAddress 7#32 = ⟨4#32⟩ := by decide

end RR32
