import Verif.Spec.Memory
import Verif.Spec.Valid

/-! # C102: what an engine's data are -/

set_option autoImplicit false

namespace RR32

namespace Spec

/-- What happens to an engine. -/
inductive EngineEvent where
  /-- a consumer that writes to it is told an entry of a file, or of an error in it -/
  | entry (sect key value : BufferManager)
  /-- a consumer that writes to it is told that its stream is complete -/
  | complete
  /-- the application gives it a name, which also resets it -/
  | named (name : List Byte)
  /-- the application overwrites it -/
  | assigned (l : Locomotive)

/-- The consumer writes to this engine. -/
def writes (w : World) (c n : Nat) : Bool :=
  match w.consumers c with
  | .loco l => l.currentEngine == .obj n
  | _ => false

/-- What a call on a consumer is for engine `n`. -/
def engineHears (w : World) (n : Nat) : LogEntry → Option EngineEvent
  | .consumer ⟨c, .consume s k v⟩ => if writes w c n then some (.entry s k v) else none
  | .consumer ⟨c, .complete⟩ => if writes w c n then some .complete else none
  | _ => none

/-- What a call of the application is for engine `n`. -/
def edits (n : Nat) : Op → List EngineEvent
  | .setName x name => if x = n then [.named name] else []
  | .assignEngine x l => if x = n then [.assigned l] else []
  | _ => []

/-- What happens to engine `n` in a history, if `S` says what a call of the application does. To which engines consumers write is decided
when the call begins. -/
inductive Befalls (S : World → Op → World → Prop) (n : Nat) : World → List Op → World → List EngineEvent → Prop where
  | nil (w : World) : Befalls S n w [] w []
  | cons {w u v : World} {op : Op} {ops : List Op} {l : List LogEntry} {es : List EngineEvent} :
      S w op u → u.log = w.log ++ l → Befalls S n u ops v es →
      Befalls S n w (op :: ops) v (edits n op ++ l.filterMap (engineHears w n) ++ es)

/-- The value that a C string is taken for: that of a hexadecimal numeral as far as an `unsigned long` can hold it, modulo 2³². -/
def HexTakenFor (pf : Platform) (m : List Byte) (u : U32) : Prop :=
  ∀ pre l n, Terminated m → text m = pre ++ l → IsHexPrefix pre → Numeral 16 l n → l ≠ [] → u = BitVec.ofNat 32 (min n (2 ^ pf.longBits - 1))

/-- The key of an entry for engines: the first of the names that it passes for. -/
def keyOf (sect key : BufferManager) : Option (List Byte) :=
  if passes (str "lokomotive") sect then [str "uid", str "typ", str "adresse"].find? (fun n => passes n key) else none

/-- What an event says of the uid. -/
def saysUid (pf : Platform) : EngineEvent → Option (U32 → Prop)
  | .entry s k v => if keyOf s k = some (str "uid") then some (HexTakenFor pf v.mem) else none
  | .named _ => some (· = 0#32)
  | .assigned l => some (· = l.data.uid)
  | .complete => none

/-- What an event says of the address. -/
def saysAddress (pf : Platform) : EngineEvent → Option (U32 → Prop)
  | .entry s k v => if keyOf s k = some (str "adresse") then some (HexTakenFor pf v.mem) else none
  | .named _ => some (· = 0#32)
  | .assigned l => some (· = l.data.address.addr)
  | .complete => none

/-- What an event says of the 8 bytes of the protocol. -/
def saysProtocol : EngineEvent → Option (List Byte → Prop)
  | .entry s k v => if keyOf s k = some (str "typ") then some (fun p => text p = (text v.mem).take 8) else none
  | .named _ => some (· = List.replicate 8 0#8)
  | .assigned l => some (· = l.protocol.take 8)
  | .complete => none

/-- What an event says of the name. -/
def saysEngineName : EngineEvent → Option (List Byte → Prop)
  | .named name => some (fun m => text m = (text name).take 32)
  | .assigned l => some (· = l.info.name)
  | .entry .. | .complete => none

/-- What an event says of how much is known. -/
def saysKnown : EngineEvent → Option Availability
  | .complete => some .FULL_DETAILS
  | .named _ => some .NAME_KNOWN
  | .assigned l => some l.info.availability
  | .entry .. => none

/-- What an event says of velocity, direction and functions. -/
def saysState : EngineEvent → Option (U16 × EngineDirection × U32)
  | .named _ => some (0#16, EngineDirection.UNKNOWN, 0#32)
  | .assigned l => some (l.data.velocity, l.data.direction, l.data.functionBits)
  | .entry .. | .complete => none

/-- A value is what was said of it last, and as before if nothing was said of it. -/
def Obeys {α : Type} (said : Option (α → Prop)) (before now : α) : Prop := (∀ p, said = some p → p now) ∧ (said = none → now = before)

/-- What the events leave of an engine. -/
structure Describes (pf : Platform) (l : Locomotive) (es : List EngineEvent) (l' : Locomotive) : Prop where
  uid : Obeys (latest (saysUid pf) es) l.data.uid l'.data.uid
  address : Obeys (latest (saysAddress pf) es) l.data.address.addr l'.data.address.addr
  protocol : Obeys (latest saysProtocol es) (l.protocol.take 8) (l'.protocol.take 8)
  name : Obeys (latest saysEngineName es) l.info.name l'.info.name
  known : l'.info.availability = (latest saysKnown es).getD l.info.availability
  state : (l'.data.velocity, l'.data.direction, l'.data.functionBits) = (latest saysState es).getD (l.data.velocity, l.data.direction, l.data.functionBits)

end Spec

end RR32
