import Verif.Model.Station

/-!
# What a station does with a received frame

Written from the protocol description: command, response flag and numbers are cut out of the raw identifier and the payload bytes
with plain arithmetic. `Call` and `Callbacks` are the interface of the library (lib/RR32Can/callback/*.h).
-/

set_option autoImplicit false

namespace RR32.Spec

/-- The command of a raw identifier. -/
def commandOf (f : CanFrame) : Nat := f.id.raw.toNat / 2 ^ 17 % 256

/-- The response flag of a raw identifier. -/
def responseOf (f : CanFrame) : Bool := f.id.raw.toNat / 2 ^ 16 % 2 = 1

/-- The big-endian number in the first four payload bytes. -/
def uidOf (d : Data) : U32 :=
  BitVec.ofNat 32 (d.b0.toNat * 2 ^ 24 + d.b1.toNat * 2 ^ 16 + d.b2.toNat * 2 ^ 8 + d.b3.toNat)

/-- The call, if the callback is installed. -/
def toward (cb : Option Nat) (call : Nat → Call) : List Call := cb.toList.map call

/-- The documented reaction to a frame. -/
def reaction (cbs : Callbacks) (processing : Bool) (f : CanFrame) : List Call :=
  let dlc := f.data.dlc.toNat
  let uid := uidOf f.data
  match commandOf f with
  | 0x00 =>
      if 5 ≤ dlc then
        match f.data.b4.toNat with
        | 0 => toward cbs.system (.setSystemState · false (responseOf f))
        | 1 => toward cbs.system (.setSystemState · true (responseOf f))
        | 2 => toward cbs.engine (.setAllVelocity · 0#16)
        | 3 => toward cbs.engine (.setLocoVelocity · uid 0#16)
        | _ => []
      else []
  | 0x04 => if dlc = 6 then toward cbs.engine (.setLocoVelocity · uid (BitVec.ofNat 16 (f.data.b4.toNat * 2 ^ 8 + f.data.b5.toNat)))
            else []
  | 0x05 =>
      if dlc = 5 then
        match f.data.b4.toNat with
        | 1 => toward cbs.engine (.setLocoDirection · uid EngineDirection.FORWARD)
        | 2 => toward cbs.engine (.setLocoDirection · uid EngineDirection.REVERSE)
        | 3 => toward cbs.engine (.changeLocoDirection · uid)
        | _ => []
      else []
  | 0x06 => if dlc = 6 then toward cbs.engine (.setLocoFunction · uid f.data.b4 (f.data.b5.toNat ≠ 0)) else []
  | 0x0B => toward cbs.accessory (.onAccessoryPacket · f.data (responseOf f))
  | 0x21 => if processing then toward cbs.configData (.cfgAdd · f.data) else []
  | _ => []

/-- Frames that need an engine callback although the station does not check for one. -/
def needsEngine (f : CanFrame) : Bool :=
  (commandOf f = 0x05 ∧ f.data.dlc.toNat = 5 ∧ (f.data.b4.toNat = 1 ∨ f.data.b4.toNat = 2 ∨ f.data.b4.toNat = 3)) ∨
  (commandOf f = 0x06 ∧ f.data.dlc.toNat = 6)

/-- Frames whose payload is dumped to the console: debug text, unknown commands, and config data nobody wants. -/
def dumped (cbs : Callbacks) (processing : Bool) (f : CanFrame) : Bool :=
  (commandOf f = 0x21 ∧ (cbs.configData = none ∨ processing = false)) ∨
  (commandOf f ≠ 0x00 ∧ commandOf f ≠ 0x04 ∧ commandOf f ≠ 0x05 ∧ commandOf f ≠ 0x06 ∧ commandOf f ≠ 0x0B ∧ commandOf f ≠ 0x18 ∧
    commandOf f ≠ 0x20 ∧ commandOf f ≠ 0x21)

end RR32.Spec
