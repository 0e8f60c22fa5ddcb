import Verif.Spec.Files
import Verif.Spec.Wire

/-!
# A master with a database of engines

What a master reads in the frames of a request, and what it answers. This is the other side of the bus: nothing here is in the
library.
-/

set_option autoImplicit false

namespace RR32.Spec

/-- An engine in the database of the master. -/
structure EngineRecord where
  name : List Byte
  uid : U32
  address : U32
  protocol : List Byte
  deriving DecidableEq, Repr

/-- A text that can be a value in a file. -/
def IsPlain (l : List Byte) : Prop := ∀ b ∈ l, b ≠ 0#8 ∧ b ≠ ch '\n'

/-- An engine whose name can be asked for, and whose protocol has a name of usual length. -/
structure EngineRecord.Valid (r : EngineRecord) : Prop where
  name : IsPlain r.name
  nameLength : r.name.length ≤ 16
  protocol : IsPlain r.protocol
  protocolLength : r.protocol.length ≤ 7

/-- What a master is asked. -/
inductive Asked where
  /-- some of the names, from a position -/
  | names (first count : Nat)
  /-- the file of an engine -/
  | engine (name : List Byte)
  deriving DecidableEq, Repr

/-- The bytes a frame carries. -/
def carried (f : CanFrame) : List Byte :=
  [f.data.b0, f.data.b1, f.data.b2, f.data.b3, f.data.b4, f.data.b5, f.data.b6, f.data.b7].take f.data.dlc.toNat

/-- The decimal number a text denotes. -/
def readNumber (l : List Byte) : Nat := l.foldl (fun a b => 10 * a + (b.toNat - 48)) 0

/-- Two numbers with a space between them. -/
def readNumbers (l : List Byte) : Nat × Nat :=
  (readNumber (l.takeWhile (· != ch ' ')), readNumber ((l.dropWhile (· != ch ' ')).drop 1))

/-- What a master reads in the frames it received. -/
def asked (fs : List CanFrame) : Option Asked :=
  if ∀ f ∈ fs, commandOf f = 0x20 ∧ responseOf f = false then
    match fs.map carried with
    | [a, b] => if a = str "loknamen" then some (.names (readNumbers b).1 (readNumbers b).2) else none
    | [a, b, c] => if a = str "lokinfo" ++ [0#8] then some (.engine (text (b ++ c))) else none
    | _ => none
  else none

/-- The entries a master answers with. -/
inductive Answer (db : List EngineRecord) : Asked → List Entry → Prop where
  | names (first count : Nat) (known : Byte) (hk : known.toNat = db.length) (es : List Entry)
      (h : NamedListFile es (((db.map (·.name)).drop first).take count) known) : Answer db (.names first count) es
  | engine (r : EngineRecord) (hr : r ∈ db) (es : List Entry) (h : NamedEngineFile es r.uid r.address r.protocol) :
      Answer db (.engine r.name) es

/-- The frames `first :: rest` are an answer to the request `fs`. -/
def Replies (db : List EngineRecord) (fs : List CanFrame) (first : CanFrame) (rest : List CanFrame) : Prop :=
  ∃ q items tail, asked fs = some q ∧ WireStream first rest items tail ∧ Answer db q (entriesOf [] items)

end RR32.Spec
