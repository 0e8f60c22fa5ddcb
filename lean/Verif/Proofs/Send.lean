import Verif.Props.Receive
import Verif.Proofs.Decimal

/-! # What the send and request functions transmit -/

set_option autoImplicit false

namespace RR32

/-- Header of a transmitted frame: request of the given command with the station's hash, priority 0, at most 8 bytes. -/
structure SentFrame (f : CanFrame) (hash : U16) (command dlc : Nat) : Prop where
  raw : f.id.raw.toNat = command * 2 ^ 17 + hash.toNat
  getCommand : f.id.getCommand.toNat = command
  isResponse : f.id.isResponse = false
  getHash : f.id.getHash = hash
  priority : f.id.getPriority.toNat = 0
  length : f.data.dlc.toNat = dlc
  length_le : dlc ≤ 8

theorem sentFrame_intro {f : CanFrame} {hash : U16} {command dlc : Nat} (hc : command < 256)
    (hraw : f.id.raw.toNat = command * 2 ^ 17 + hash.toNat) (hd : f.data.dlc.toNat = dlc) (hl : dlc ≤ 8) :
    SentFrame f hash command dlc := by
  obtain ⟨f1, f2, f3, f4⟩ := C01_fields f.id
  have hh := hash.isLt
  refine ⟨hraw, by omega, ?_, ?_, by omega, hd, hl⟩
  · rw [Bool.eq_false_iff, ne_eq, f2]; omega
  · apply BitVec.eq_of_toNat_eq; omega

theorem SentFrame.commandOf {f : CanFrame} {hash : U16} {command dlc : Nat} (h : SentFrame f hash command dlc) :
    Spec.commandOf f = command := by
  rw [← h.getCommand, (C01_fields f.id).2.2.1]; rfl

theorem setHash_built {f : CanFrame} {command dlc : Nat} (h : BuiltFrame f command false dlc) (hash : U16) :
    SentFrame { f with id := f.id.setHash hash } hash command dlc := by
  have hc : command < 256 := by rw [← h.getCommand]; exact f.id.getCommand.isLt
  refine sentFrame_intro hc ?_ h.length h.length_le
  show (f.id.setHash hash).raw.toNat = _
  rw [(C01_setters f.id hash 0#8 false).1, h.raw]
  simp only [Bool.toNat_false]
  omega

theorem withBytes_bytes (l : List Byte) (h : l.length = 9) (d : Data) : (d.withBytes l).bytes = l := by
  match l, h with
  | [_, _, _, _, _, _, _, _, _], _ => rfl

theorem withBytes_dlc (l : List Byte) (d : Data) : (d.withBytes l).dlc = d.dlc := rfl

/-- `FinishCurrentConfigRequest` in one formula. -/
theorem finish_eq (s : Station) :
    s.FinishCurrentConfigRequest =
      ({ s with callbacks := { s.callbacks with configData := none } }, s.callbacks.configData.toList.map .cfgReset) := by
  unfold Station.FinishCurrentConfigRequest
  split
  · next h =>
    rw [h]
    have e : { s.callbacks with configData := none } = s.callbacks := by
      rw [← h]
    simp only [e]; rfl
  · next cb h => rw [h]; rfl

/-- The calls that start a request: reset of the old consumer, start of the new one. -/
def requestPrefix (s : Station) (parser : Option Nat) : List Call :=
  s.callbacks.configData.toList.map .cfgReset ++ parser.toList.map .cfgStart

end RR32
