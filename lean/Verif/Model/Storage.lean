import Verif.Model.Lifetime

/-!
# Storage that is used again

`Model/Lifetime.lean` lets the application destroy objects. Here it also creates objects while the program runs, and may create one where a
destroyed one was: a pointer that was left behind then points to the new object, and nothing tells the library that it is another one.
The number of an object is its place in memory. Creating an object where one still exists ends that one, as in C++; the destructors of
the library do nothing.
-/

set_option autoImplicit false

namespace RR32

/-- An object as its constructor leaves it, and its place. -/
inductive Newborn where
  /-- lib/RR32CanEngineDb/util/ConfigDataStreamParser.h:46-49, with the text parser in it: TextParser.cpp:7-13; the arguments are what
  the four arrays happen to contain. -/
  | parser (n : Nat) (rawbuffer rawsection rawkey rawvalue : List Byte)
  /-- lib/RR32CanEngineDb/LocoConsumer.h:45, ConfigDataConsumer.h:21 -/
  | loco (n : Nat)
  /-- lib/RR32CanEngineDb/LocoListConsumer.h:19 -/
  | list (n : Nat)
  /-- A consumer of the application, lib/RR32CanEngineDb/util/ConfigDataConsumer.h:13-22. -/
  | app (n : Nat)
  /-- lib/RR32Can/Locomotive.h:160; the argument is what `protocol_` happens to contain. -/
  | engine (n : Nat) (garbage : List Byte)
  /-- lib/RR32Can/callback/TxCbk.h -/
  | tx (n : Nat)
  /-- lib/RR32Can/callback/SystemCbk.h -/
  | system (n : Nat)
  /-- lib/RR32Can/callback/EngineCbk.h -/
  | engineCbk (n : Nat)
  /-- lib/RR32Can/callback/AccessoryCbk.h -/
  | accessory (n : Nat)
  /-- lib/RR32CanEngineDb/util/ConfigDataEndStreamCallback.h -/
  | endCallback (n : Nat)

/-- The object that then exists. -/
def Newborn.obj : Newborn → Obj
  | .parser n _ _ _ _ => .parser n
  | .loco n | .list n | .app n => .consumer n
  | .engine n _ => .engine n
  | .tx n => .tx n
  | .system n => .system n
  | .engineCbk n => .engineCbk n
  | .accessory n => .accessory n
  | .endCallback n => .endCallback n

/-- What a program does: it calls public functions, destroys objects, and creates objects. -/
inductive Deed where
  | call (op : Op)
  | destroy (o : Obj)
  | create (b : Newborn)

namespace World

/-- The constructors: lib/RR32CanEngineDb/util/ConfigDataStreamParser.h:46-49 and TextParser.cpp:7-13, LocoConsumer.h:45,
LocoListConsumer.h:19, lib/RR32Can/Locomotive.h:160. The callbacks of the application have no content here. -/
def create (w : World) : Newborn → Res World
  | .parser n a b c d => do
      let t ← TextParser.construct a b c d
      .ok (w.setParser n (StreamParser.construct t))
  | .loco n => .ok (w.setConsumer n (.loco LocoConsumer.construct))
  | .list n => .ok (w.setConsumer n (.list LocoListConsumer.construct))
  | .app n => .ok (w.setConsumer n .app)
  | .engine n garbage => .ok { w with engines := w.engines.set n (Locomotive.construct garbage) }
  | .tx _ | .system _ | .engineCbk _ | .accessory _ | .endCallback _ => .ok w

/-- A history of calls, destructions and creations. -/
def runS (live : Obj → Bool) (w : World) : List Deed → Out ((Obj → Bool) × World)
  | [] => .ok (live, w)
  | .call op :: ds => do
      let w ← w.stepL live op
      runS live w ds
  | .destroy o :: ds => do
      Out.check live [o]
      runS (fun x => x != o && live x) w ds
  | .create b :: ds => do
      let w ← Out.lift (w.create b)
      runS (fun x => x == b.obj || live x) w ds

end World

end RR32
