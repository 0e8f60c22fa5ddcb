import Verif.Model.World

/-! # C99: which engines are completely known -/

set_option autoImplicit false

namespace RR32

namespace Spec

/-- The consumer writes to this engine. -/
def WritesTo (w : World) (c n : Nat) : Prop := ∃ l, w.consumers c = .loco l ∧ l.currentEngine = .obj n

/-- Among what happened, a consumer that writes to this engine was told that its stream is complete. -/
def CompletedIn (w : World) (happened : List LogEntry) (n : Nat) : Prop := ∃ c, .consumer ⟨c, .complete⟩ ∈ happened ∧ WritesTo w c n

/-- The application gives the engine a name. -/
def GivesName (n : Nat) (op : Op) : Prop := ∃ name, op = .setName n name

/-- The application overwrites the engine. -/
def Overwrites (n : Nat) (op : Op) : Prop := ∃ l, op = .assignEngine n l

/-- All data of the engine have been received. -/
def Known (w : World) (n : Nat) : Prop := (w.engines n).info.availability = .FULL_DETAILS

/-- A history, if `S` says what a call of the application does. -/
inductive Went (S : World → Op → World → Prop) : World → List Op → World → Prop where
  | nil (w : World) : Went S w [] w
  | cons {w u v : World} {op : Op} {ops : List Op} : S w op u → Went S u ops v → Went S w (op :: ops) v

/-- In the history, a consumer that wrote to the engine was told that its stream is complete, or the engine was known at the beginning; and it
has not been given a name since. -/
def Learnt (S : World → Op → World → Prop) (w : World) (ops : List Op) (n : Nat) : Prop :=
  (Known w n ∧ ∀ op ∈ ops, ¬GivesName n op) ∨
  ∃ before op later u u' l, ops = before ++ op :: later ∧ Went S w before u ∧ S u op u' ∧ u'.log = u.log ++ l ∧ CompletedIn u l n ∧
    ∀ op ∈ later, ¬GivesName n op

end Spec

end RR32
