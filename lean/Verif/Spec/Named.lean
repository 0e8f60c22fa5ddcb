import Verif.Spec.Console
import Verif.Spec.Receive

/-! # What the log has to say about a received frame, to the letter (C96)

Written from the numbers of the protocol, not from the constants of the model. -/

set_option autoImplicit false

namespace RR32.Spec

/-- The words for the subcommand of a system frame; those that the station does not tell apart are unknown to it, and the emergency
stop of an engine is not mentioned. -/
def subcommandWords (sub : Byte) : List Byte :=
  match sub.toNat with
  | 0x00 => str "STOP!\n"
  | 0x01 => str "GO!\n"
  | 0x02 => str "Halt!\n"
  | 0x03 => []
  | 0x0A => str "OVERLOAD!\n"
  | 0x0B => str "Status.\n"
  | 0x0C => str "Identifier.\n"
  | 0x80 => str "Reset.\n"
  | _ => str "unknown.\n"

/-- The bytes of a frame that its length announces. -/
def shown (d : Data) : List Byte := d.bytes.take d.dlc.toNat

/-- Bytes as a hex dump. -/
def dump (l : List Byte) : List Byte := l.flatMap fun b => 32#8 :: dumpByte b

/-- What is printed about a frame; `details` is the text about the turnout (C69) and `wanted` says whether a stream is being
received. -/
def logged (details : Data → List Byte) (wanted : Bool) (f : CanFrame) : List Byte :=
  match commandOf f with
  | 0x00 =>
      if 5 ≤ f.data.dlc.toNat then str "System Command.  Subcommand: " ++ subcommandWords f.data.b4
      else str "System Command. Invalid command.\n"
  | 0x04 => []
  | 0x05 => []
  | 0x06 => []
  | 0x0B => str "Accessory Switch. Details: " ++ details f.data ++ str "\n"
  | 0x18 => []
  | 0x20 => []
  | 0x21 => if wanted then [] else str "Ignoring ConfigData Stream: " ++ shown f.data
  | 0x42 => str "Debug Text: '" ++ shown f.data ++ str "'\n"
  | c => str "Unknown or not implemented. Dump: " ++ dumpByte (BitVec.ofNat 8 c) ++ str "\n" ++ dump (shown f.data) ++ str "\n"

/-- The kinds of frames that can be told apart by the log. -/
inductive Kind
  | silent | system | accessory | stream | debug
  | other (command : Nat) (bytes : List Byte)
deriving DecidableEq

/-- The kind of a frame. -/
def kind (wanted : Bool) (f : CanFrame) : Kind :=
  match commandOf f with
  | 0x00 => .system
  | 0x04 | 0x05 | 0x06 | 0x18 | 0x20 => .silent
  | 0x0B => .accessory
  | 0x21 => if wanted then .silent else .stream
  | 0x42 => .debug
  | c => .other c (shown f.data)

end RR32.Spec
