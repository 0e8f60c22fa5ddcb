import Verif.Model.World
import Verif.Model.ListGetters
import Verif.Spec.Strings
import Verif.Spec.Numbers

/-! # C100, C101: what an engine list remembers -/

set_option autoImplicit false

namespace RR32

namespace Spec

/-- What happens to an engine list. -/
inductive ListEvent where
  /-- it is told an entry of a file, or of an error in it -/
  | entry (sect key value : BufferManager)
  /-- it is told that its stream is complete -/
  | complete
  /-- it is told that its stream was aborted -/
  | aborted
  /-- the application sets the offset -/
  | offset (b : Byte)
  /-- the application clears the table -/
  | clear
  /-- the application resets it -/
  | reset
  deriving DecidableEq

/-- What a call on a consumer is for list `c`. -/
def listHears (c : Nat) : LogEntry → Option ListEvent
  | .consumer ⟨x, a⟩ =>
      if x = c then some (match a with
        | .consume s k v => .entry s k v
        | .complete => .complete
        | .aborted => .aborted)
      else none
  | _ => none

/-- What a call of the application is for list `c`. -/
def ordered (c : Nat) : Op → List ListEvent
  | .setStreamOffset x b => if x = c then [.offset b] else []
  | .clearTable x => if x = c then [.clear] else []
  | .resetList x => if x = c then [.reset] else []
  | _ => []

/-- What happens to list `c` in a history, if `S` says what a call of the application does. -/
inductive Happens (S : World → Op → World → Prop) (c : Nat) : World → List Op → World → List ListEvent → Prop where
  | nil (w : World) : Happens S c w [] w []
  | cons {w u v : World} {op : Op} {ops : List Op} {l : List LogEntry} {es : List ListEvent} :
      S w op u → u.log = w.log ++ l → Happens S c u ops v es → Happens S c w (op :: ops) v (ordered c op ++ l.filterMap (listHears c) ++ es)

/-- The last thing the events say. -/
def latest {ε α : Type} (f : ε → Option α) (es : List ε) : Option α := (es.filterMap f).getLast?

/-- Whether the stream is complete. -/
def saysComplete : ListEvent → Option Bool
  | .complete => some true
  | .aborted | .reset => some false
  | _ => none

/-- The offset. -/
def saysOffset : ListEvent → Option Byte
  | .offset b => some b
  | .aborted | .reset => some 0#8
  | _ => none

/-- Whether the number of engines was set to zero, or may have been told by the master. -/
def saysNumber : ListEvent → Option Bool
  | .entry .. => some false
  | .aborted | .reset => some true
  | _ => none

/-- Whether the table was emptied, or may have been filled. -/
def saysEmpty : ListEvent → Option Bool
  | .entry .. => some false
  | .aborted | .reset | .clear => some true
  | _ => none

/-- What the list says before and after the events. -/
def Answers (d : LocoListConsumer) (es : List ListEvent) (d' : LocoListConsumer) : Prop :=
  (∀ b, latest saysComplete es = some b → d'.isStreamComplete = .ok b) ∧
  (latest saysComplete es = none → d'.isStreamComplete = d.isStreamComplete) ∧
  (∀ b, latest saysOffset es = some b → d'.getStreamOffset = .ok b) ∧
  (latest saysOffset es = none → d'.getStreamOffset = d.getStreamOffset) ∧
  (latest saysNumber es = some true → d'.getNumEnginesKnownByMaster = .ok 0#8) ∧
  (latest saysNumber es = none → d'.getNumEnginesKnownByMaster = d.getNumEnginesKnownByMaster) ∧
  (latest saysEmpty es = some true → ∀ i ∈ d'.getEngineInfos, i.isNameKnown = false) ∧
  (latest saysEmpty es = none → d'.getEngineInfos = d.getEngineInfos)

/-- The token in a buffer passes for the expected name: the code compares only as many bytes as the token has. -/
def passes (expected : List Byte) (b : BufferManager) : Bool := decide ((text b.mem).take b.len = expected.take b.len)

/-- The name of an engine that an entry tells. -/
def toldName (sect value : BufferManager) : Option (List Byte) :=
  if passes (str "loknamen") sect then some ((text value.mem).take 32) else none

/-- The text of the number of engines that an entry tells. -/
def toldNumber (sect key value : BufferManager) : Option (List Byte) :=
  if !passes (str "loknamen") sect && passes (str "numloks") sect && passes (str "wert") key then some (text value.mem) else none

/-- The name an event tells. -/
def saysName : ListEvent → Option (List Byte)
  | .entry s _ v => toldName s v
  | _ => none

/-- The names in the table after an event: there is room for two. -/
def tableStep (names : List (List Byte)) : ListEvent → List (List Byte)
  | .entry s _ v => (names ++ (toldName s v).toList).take 2
  | .aborted | .reset | .clear => []
  | .complete | .offset _ => names

/-- The text of the number of engines. -/
def saysCount : ListEvent → Option (List Byte)
  | .entry s k v => toldNumber s k v
  | .aborted | .reset => some (str "0")
  | .complete | .offset _ | .clear => none

/-- The number that a text is taken for: that of a numeral, modulo 256, and as far as a `long` can hold it. -/
def TakenFor (pf : Platform) (t : List Byte) (b : Byte) : Prop :=
  ∀ n, Numeral 10 t n → t ≠ [] → b = BitVec.ofNat 8 (min n (2 ^ (pf.longBits - 1) - 1))

/-- The slots of the table: a name, or nothing. -/
def slots (d : LocoListConsumer) : List (Option (List Byte)) :=
  d.getEngineInfos.map (fun i => if i.isNameKnown then some (text i.name) else none)

/-- The two slots show these names, and then nothing. -/
def TableShows (d : LocoListConsumer) (names : List (List Byte)) : Prop :=
  names.length ≤ 2 ∧ slots d = names.map some ++ List.replicate (2 - names.length) none

/-- What the table and the number are after the events. -/
def Contains (pf : Platform) (d : LocoListConsumer) (es : List ListEvent) (d' : LocoListConsumer) : Prop :=
  (∀ names, TableShows d names → TableShows d' (es.foldl tableStep names)) ∧
  (∀ t, latest saysCount es = some t → ∃ b, d'.getNumEnginesKnownByMaster = .ok b ∧ TakenFor pf t b) ∧
  (latest saysCount es = none → d'.getNumEnginesKnownByMaster = d.getNumEnginesKnownByMaster)

end Spec

end RR32
