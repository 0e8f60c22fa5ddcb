import Verif.Model.Storage
import Verif.Spec.Lifetime

/-! # Programs that use storage again -/

set_option autoImplicit false

namespace RR32

namespace World

/-- Creating an object. -/
def adding (live : Obj → Bool) (o : Obj) : Obj → Bool := fun x => x == o || live x

/-- A careful program (`Careful`) that also creates objects, where none exists. -/
inductive CarefulS : (Obj → Bool) → World → List Deed → Prop where
  | nil (live : Obj → Bool) (w : World) : CarefulS live w []
  | call (live : Obj → Bool) (w : World) (op : Op) (ds : List Deed) (hm : ∀ o, Mentions op o → live o = true)
      (h : ∀ w', w.step op = .ok w' → CarefulS live w' ds) : CarefulS live w (.call op :: ds)
  | destroy (live : Obj → Bool) (w : World) (o : Obj) (ds : List Deed) (ho : live o = true) (hs : ¬w.station.Has o)
      (hp : ∀ o', live o' = true → ¬w.Points o' o) (h : CarefulS (without live o) w ds) : CarefulS live w (.destroy o :: ds)
  | create (live : Obj → Bool) (w : World) (b : Newborn) (ds : List Deed) (hb : live b.obj = false)
      (h : ∀ w', w.create b = .ok w' → CarefulS (adding live b.obj) w' ds) : CarefulS live w (.create b :: ds)

/-- The same program if nothing were ever destroyed: what is made anew is assigned to what was there. -/
def runForever (w : World) : List Deed → Res World
  | [] => .ok w
  | .call op :: ds => do
      let w ← w.step op
      runForever w ds
  | .destroy _ :: ds => runForever w ds
  | .create b :: ds => do
      let w ← w.create b
      runForever w ds

/-- The application has to do with an object. -/
inductive Names : Deed → Obj → Prop where
  | call (op : Op) (o : Obj) (h : Mentions op o) : Names (.call op) o
  | destroy (o : Obj) : Names (.destroy o) o
  | create (b : Newborn) : Names (.create b) b.obj

/-- Who is told something. -/
inductive Tells : LogEntry → Obj → Prop where
  | call (c : Call) (o : Obj) (h : For c o) : Tells (.call c) o
  | consumer (c : ConsumerCall) : Tells (.consumer c) (.consumer c.consumer)
  | endCallback (cb c : Nat) (complete : Bool) (seen : Seen) : Tells (.streamEnd cb c complete seen) (.endCallback cb)

/-- An object is told nothing and does not change. -/
structure LeftAlone (o : Obj) (w w' : World) : Prop where
  log : ∃ new, w'.log = w.log ++ new ∧ ∀ x ∈ new, ¬Tells x o
  parser : ∀ n, o = .parser n → w'.parsers n = w.parsers n
  consumer : ∀ n, o = .consumer n → w'.consumers n = w.consumers n
  engine : ∀ n, o = .engine n → w'.engines n = w.engines n

end World

end RR32
