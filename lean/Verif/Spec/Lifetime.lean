import Verif.Model.Lifetime

/-! # Who points to whom -/

set_option autoImplicit false

namespace RR32

/-- The consumers a stream parser points to: it has a pointer of its own, and the text parser in it has one. -/
def StreamParser.has (p : StreamParser) (c : Nat) : Prop := p.consumer = some c ∨ p.text.consumer = some c

/-- A pointer of the station. -/
inductive Station.Has (s : Station) : Obj → Prop where
  | tx (n : Nat) (h : s.callbacks.tx = some n) : Has s (.tx n)
  | system (n : Nat) (h : s.callbacks.system = some n) : Has s (.system n)
  | engineCbk (n : Nat) (h : s.callbacks.engine = some n) : Has s (.engineCbk n)
  | accessory (n : Nat) (h : s.callbacks.accessory = some n) : Has s (.accessory n)
  | parser (n : Nat) (h : s.callbacks.configData = some n) : Has s (.parser n)

namespace World

/-- A pointer from one object to another. -/
inductive Points (w : World) : Obj → Obj → Prop where
  | consumer (n c : Nat) (h : (w.parsers n).has c) : Points w (.parser n) (.consumer c)
  | engine (c e : Nat) (l : LocoConsumer) (h : w.consumers c = .loco l) (he : l.currentEngine = .obj e) : Points w (.consumer c) (.engine e)
  | locoEnd (c n : Nat) (l : LocoConsumer) (h : w.consumers c = .loco l) (he : l.streamEndCallback = .obj n) : Points w (.consumer c) (.endCallback n)
  | listEnd (c n : Nat) (l : LocoListConsumer) (h : w.consumers c = .list l) (he : l.streamEndCallback = .obj n) :
      Points w (.consumer c) (.endCallback n)

/-- The objects an application mentions in a call: those whose functions it calls and those it passes pointers to. -/
inductive Mentions : Op → Obj → Prop where
  | beginTx (u : U16) (cbs : Callbacks) (n : Nat) (h : cbs.tx = some n) : Mentions (.begin_ u cbs) (.tx n)
  | beginSystem (u : U16) (cbs : Callbacks) (n : Nat) (h : cbs.system = some n) : Mentions (.begin_ u cbs) (.system n)
  | beginEngine (u : U16) (cbs : Callbacks) (n : Nat) (h : cbs.engine = some n) : Mentions (.begin_ u cbs) (.engineCbk n)
  | beginAccessory (u : U16) (cbs : Callbacks) (n : Nat) (h : cbs.accessory = some n) : Mentions (.begin_ u cbs) (.accessory n)
  | beginParser (u : U16) (cbs : Callbacks) (n : Nat) (h : cbs.configData = some n) : Mentions (.begin_ u cbs) (.parser n)
  | requestEngine (e : Nat) (p : Option Nat) : Mentions (.requestEngine e p) (.engine e)
  | requestParser (e n : Nat) : Mentions (.requestEngine e (some n)) (.parser n)
  | shortParser (i : ShortInfo) (n : Nat) : Mentions (.requestShortInfo i (some n)) (.parser n)
  | listParser (off : Byte) (n : Nat) : Mentions (.requestEngineList off (some n)) (.parser n)
  | parserStart (n : Nat) (c : Option Nat) : Mentions (.parserStart n c) (.parser n)
  | parserConsumer (n c : Nat) : Mentions (.parserStart n (some c)) (.consumer c)
  | parserStartStream (n : Nat) : Mentions (.parserStartStream n) (.parser n)
  | parserAdd (n : Nat) (d : Data) : Mentions (.parserAdd n d) (.parser n)
  | parserReset (n : Nat) : Mentions (.parserReset n) (.parser n)
  | setEngine (c : Nat) (e : Option Nat) : Mentions (.setEngine c e) (.consumer c)
  | setEngineTo (c e : Nat) : Mentions (.setEngine c (some e)) (.engine e)
  | setEnd (c : Nat) (n : Option Nat) : Mentions (.setEndCallback c n) (.consumer c)
  | setEndTo (c n : Nat) : Mentions (.setEndCallback c (some n)) (.endCallback n)
  | setOffset (c : Nat) (o : Byte) : Mentions (.setStreamOffset c o) (.consumer c)
  | clearTable (c : Nat) : Mentions (.clearTable c) (.consumer c)
  | resetList (c : Nat) : Mentions (.resetList c) (.consumer c)
  | setName (e : Nat) (name : List Byte) : Mentions (.setName e name) (.engine e)
  | assignEngine (e : Nat) (l : Locomotive) : Mentions (.assignEngine e l) (.engine e)

/-- What a call can reach: what the station points to, what the application mentions, and what these point to. -/
inductive Reached (w : World) (op : Op) : Obj → Prop where
  | station (o : Obj) (h : w.station.Has o) : Reached w op o
  | mentioned (o : Obj) (h : Mentions op o) : Reached w op o
  | pointer (o o' : Obj) (h : Reached w op o) (hp : w.Points o o') : Reached w op o'

/-- Nothing that exists points to something that does not. -/
structure NoDangling (live : Obj → Bool) (w : World) : Prop where
  station : ∀ o, w.station.Has o → live o = true
  objects : ∀ o o', live o = true → w.Points o o' → live o' = true

/-- Destroying an object. -/
def without (live : Obj → Bool) (o : Obj) : Obj → Bool := fun x => x != o && live x

/-- A program that mentions only objects that exist, and destroys an object only when nothing that exists points to it. -/
inductive Careful : (Obj → Bool) → World → List Act → Prop where
  | nil (live : Obj → Bool) (w : World) : Careful live w []
  | call (live : Obj → Bool) (w : World) (op : Op) (acts : List Act) (hm : ∀ o, Mentions op o → live o = true)
      (h : ∀ w', w.step op = .ok w' → Careful live w' acts) : Careful live w (.call op :: acts)
  | destroy (live : Obj → Bool) (w : World) (o : Obj) (acts : List Act) (ho : live o = true) (hs : ¬w.station.Has o)
      (hp : ∀ o', live o' = true → ¬w.Points o' o) (h : Careful (without live o) w acts) : Careful live w (.destroy o :: acts)

/-- Nothing that exists points to something that does not, except perhaps parsers that are not processing a stream. -/
structure Tidy (live : Obj → Bool) (w : World) : Prop where
  station : ∀ o, w.station.Has o → live o = true
  parsers : ∀ n c, live (.parser n) = true → (w.parsers n).isProcessing = true → (w.parsers n).has c → live (.consumer c) = true
  consumers : ∀ c o, live (.consumer c) = true → w.Points (.consumer c) o → live o = true

/-- The parsers a call puts to work with the consumer they have: the one the application starts, and the one it gives to a request, unless
it is the parser of the current request, which is first reset. -/
def Starts (w : World) : Op → Nat → Prop
  | .parserStartStream n, m => n = m
  | .requestEngine _ p, m | .requestShortInfo _ p, m | .requestEngineList _ p, m => p = some m ∧ w.station.callbacks.configData ≠ some m
  | _, _ => False

/-- A program that mentions only objects that exist, destroys an object when only parsers that are not processing a stream point to it, and
does not put such a parser to work again. -/
inductive Patient : (Obj → Bool) → World → List Act → Prop where
  | nil (live : Obj → Bool) (w : World) : Patient live w []
  | call (live : Obj → Bool) (w : World) (op : Op) (acts : List Act) (hm : ∀ o, Mentions op o → live o = true)
      (hs : ∀ n, Starts w op n → ∀ c, (w.parsers n).has c → live (.consumer c) = true)
      (h : ∀ w', w.step op = .ok w' → Patient live w' acts) : Patient live w (.call op :: acts)
  | destroy (live : Obj → Bool) (w : World) (o : Obj) (acts : List Act) (ho : live o = true) (hs : ¬w.station.Has o)
      (hp : ∀ o', live o' = true → w.Points o' o → ∃ n, o' = .parser n ∧ (w.parsers n).isProcessing = false)
      (h : Patient (without live o) w acts) : Patient live w (.destroy o :: acts)

/-- The calls of a program. -/
def callsOf : List Act → List Op
  | [] => []
  | .call op :: acts => op :: callsOf acts
  | .destroy _ :: acts => callsOf acts

/-- Whom a call of the station is for: the callback of the kind that has the function. -/
inductive For : Call → Obj → Prop where
  | tx (n : Nat) (f : CanFrame) : For (.tx n f) (.tx n)
  | system (n : Nat) (on response : Bool) : For (.setSystemState n on response) (.system n)
  | velocity (n : Nat) (uid : U32) (v : U16) : For (.setLocoVelocity n uid v) (.engineCbk n)
  | allVelocity (n : Nat) (v : U16) : For (.setAllVelocity n v) (.engineCbk n)
  | function (n : Nat) (uid : U32) (i : Byte) (on : Bool) : For (.setLocoFunction n uid i on) (.engineCbk n)
  | direction (n : Nat) (uid : U32) (d : EngineDirection) : For (.setLocoDirection n uid d) (.engineCbk n)
  | change (n : Nat) (uid : U32) : For (.changeLocoDirection n uid) (.engineCbk n)
  | accessory (n : Nat) (d : Data) (response : Bool) : For (.onAccessoryPacket n d response) (.accessory n)
  | start (n : Nat) : For (.cfgStart n) (.parser n)
  | add (n : Nat) (d : Data) : For (.cfgAdd n d) (.parser n)
  | reset (n : Nat) : For (.cfgReset n) (.parser n)

/-- Whoever is told something exists. -/
def TellsLiving (live : Obj → Bool) : LogEntry → Prop
  | .call c => ∃ o, For c o ∧ live o = true
  | .consumer c => live (.consumer c.consumer) = true
  | .streamEnd cb c _ _ => live (.endCallback cb) = true ∧ live (.consumer c) = true

/-- Only objects that exist are told something, or change. -/
structure OnlyLiving (live : Obj → Bool) (w w' : World) : Prop where
  log : ∃ new, w'.log = w.log ++ new ∧ ∀ x ∈ new, TellsLiving live x
  parsers : ∀ n, w'.parsers n ≠ w.parsers n → live (.parser n) = true
  consumers : ∀ n, w'.consumers n ≠ w.consumers n → live (.consumer n) = true
  engines : ∀ n, w'.engines n ≠ w.engines n → live (.engine n) = true

end World

end RR32
