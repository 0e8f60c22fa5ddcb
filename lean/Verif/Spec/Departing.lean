import Verif.Model.Departing
import Verif.Spec.Lifetime

/-! # Which objects a callback may destroy -/

set_option autoImplicit false

namespace RR32

/-- The program ran and returned `a`. -/
def RunD.Returns {α : Type} (r : RunD α) (a : α) : Prop := r.run = some (.ok a)

/-- The program used an object that no longer exists. -/
def RunD.Dangles {α : Type} (r : RunD α) : Prop := ∃ o, r.run = some (.error (.dangling o))

namespace Scene

/-- Nothing that exists points to something that does not, and everything that is still used by the functions that are running exists. -/
structure Kept (busy : List Obj) (h : Scene) : Prop where
  pointers : World.NoDangling h.live h.w
  used : ∀ o ∈ busy, h.live o = true

/-- What a callback, or the main program, may do: it mentions only objects that exist, and destroys an object only when nothing that exists
points to it and no function that is running still uses it. The function says what each step leads to. -/
inductive Heeds (f : Scene → Act → RunD Scene) (busy : List Obj) : Scene → List Act → Prop where
  | nil (h : Scene) : Heeds f busy h []
  | call (h : Scene) (op : Op) (acts : List Act) (hm : ∀ o, World.Mentions op o → h.live o = true)
      (hn : ∀ h', (f h (.call op)).Returns h' → Heeds f busy h' acts) : Heeds f busy h (.call op :: acts)
  | destroy (h : Scene) (o : Obj) (acts : List Act) (ho : h.live o = true) (hs : ¬h.w.station.Has o)
      (hp : ∀ o', h.live o' = true → ¬h.w.Points o' o) (hb : o ∉ busy) (hn : Heeds f busy (h.drop o) acts) : Heeds f busy h (.destroy o :: acts)

/-- What cannot be done without the object: its destruction, the calls of its own functions, and the request that reads its name. -/
inductive Needs : Act → Obj → Prop where
  | destroy (o : Obj) : Needs (.destroy o) o
  | parserStart (n : Nat) (c : Option Nat) : Needs (.call (.parserStart n c)) (.parser n)
  | parserStartStream (n : Nat) : Needs (.call (.parserStartStream n)) (.parser n)
  | parserAdd (n : Nat) (d : Data) : Needs (.call (.parserAdd n d)) (.parser n)
  | parserReset (n : Nat) : Needs (.call (.parserReset n)) (.parser n)
  | setEngine (c : Nat) (e : Option Nat) : Needs (.call (.setEngine c e)) (.consumer c)
  | setEndCallback (c : Nat) (cb : Option Nat) : Needs (.call (.setEndCallback c cb)) (.consumer c)
  | clearTable (c : Nat) : Needs (.call (.clearTable c)) (.consumer c)
  | resetList (c : Nat) : Needs (.call (.resetList c)) (.consumer c)
  | setName (e : Nat) (name : List Byte) : Needs (.call (.setName e name)) (.engine e)
  | requestEngine (e : Nat) (p : Option Nat) : Needs (.call (.requestEngine e p)) (.engine e)

/-- The parser of the new request is registered and started. -/
def requested (h : Scene) (parser : Option Nat) : Scene :=
  { h with w :=
      { h.w with
        station := { h.w.station with callbacks := { h.w.station.callbacks with configData := parser } }
        parsers := fun n => if some n = parser then { h.w.parsers n with state := .WAITING_FIRST_PACKET, crc := some Crc.reset } else h.w.parsers n } }

end Scene

/-- All callbacks of the program are careful in this sense. -/
def ProgramD.Careful (P : ProgramD) : Prop :=
  ∀ (depth : Nat) (busy : List Obj) (h : Scene) (e : LogEntry), Scene.Kept busy h → Scene.Heeds (Scene.nested P depth busy) busy h (P busy h e)

/-- The callbacks of `Q` make the same calls as those of `P`, and destroy nothing. -/
def ProgramD.Calls (P : ProgramD) (Q : Program) : Prop := ∀ (busy : List Obj) (h : Scene) (e : LogEntry), World.callsOf (P busy h e) = Q h.w e

/-- The first run does what the second one does, unless it uses an object that no longer exists. -/
def RunD.Follows {α β : Type} (f : α → β) (x : RunD α) (y : Run β) : Prop :=
  match x.run with
  | none => y.run = none
  | some (.ok a) => y.run = some (.ok (f a))
  | some (.error (.fault e)) => y.run = some (.error e)
  | some (.error (.dangling _)) => True

end RR32
