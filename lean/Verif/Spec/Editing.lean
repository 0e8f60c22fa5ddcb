import Verif.Spec.Text
import Verif.Model.Editing

/-! # What a consumer that modifies its buffers is told

The meaning of the calls on strings of bounded length, and of a document for such a consumer. -/

set_option autoImplicit false

namespace RR32.Spec

/-- The string a call leaves, in a buffer that holds up to `cap` bytes. -/
def editOne (cap : Nat) (s : List Byte) : BufCall → List Byte
  | .erase => []
  | .pop_front n => s.drop n
  | .push_back text => s ++ text.take (cap - s.length)
  | .push_back_char c => if s.length < cap then s ++ [c] else s
  | .set text => text.take (cap - 1)
  | .put index c => s.set (min index (s.length - 1)) c

/-- The string several calls leave. -/
def edit (cap : Nat) (s : List Byte) (l : List BufCall) : List Byte := l.foldl (editOne cap) s

/-- Calls that can be written down: counts and lengths are bytes, a string constant has no zero byte inside, and `at` is used on a
buffer that is not empty (on an empty one it writes out of bounds). -/
def MayCall (s : List Byte) : BufCall → Prop
  | .erase => True
  | .pop_front n => n < 256
  | .push_back text => text.length < 256
  | .push_back_char _ => True
  | .set text => ∀ c ∈ text, c ≠ 0#8
  | .put index _ => index < 256 ∧ s ≠ []

/-- Calls that can be written down, one after the other. -/
def MayCalls (cap : Nat) : List Byte → List BufCall → Prop
  | _, [] => True
  | s, c :: l => MayCall s c ∧ MayCalls cap (editOne cap s c) l

/-- What a consumer does with its buffers, given the entries it has been told, the present one last. -/
abbrev Habit := List Entry → Edits

/-- No part of an entry is too long for its buffer. -/
def Entry.InBounds (e : Entry) : Prop := e.sect.length ≤ maxSection ∧ e.key.length ≤ maxKey ∧ e.value.length ≤ maxValue

/-- A consumer all of whose calls can be written down. -/
def Habit.Lawful (E : Habit) : Prop :=
  ∀ done e, e.InBounds → MayCalls maxSection e.sect (E (done ++ [e])).sect ∧ MayCalls maxKey e.key (E (done ++ [e])).key ∧
    MayCalls maxValue e.value (E (done ++ [e])).value

/-- All a consumer has been told after a document, if no line is too long. `done` is what it was told before, `sect` the section in
force, `left` what it left in the value buffer at the last line if that was a key without a value. An entry is reported under the
section as the consumer left it; what it left in the value buffer is put before the next value. -/
def toldBy (E : Habit) (done : List Entry) (sect left : List Byte) : List Item → Option (List Entry)
  | [] => some done
  | .section _ n :: is => if n.length ≤ maxSection then toldBy E done n left is else none
  | .entry _ k v :: is =>
      if k.length ≤ maxKey ∧ (left ++ v).length ≤ maxValue then
        let done := done ++ [{ sect := sect, key := k, value := left ++ v }]
        toldBy E done (edit maxSection sect (E done).sect) [] is
      else none
  | .flag _ k :: is =>
      if k.length ≤ maxKey then
        let done := done ++ [{ sect := sect, key := k, value := [] }]
        toldBy E done (edit maxSection sect (E done).sect) (edit maxValue [] (E done).value) is
      else none

end RR32.Spec
