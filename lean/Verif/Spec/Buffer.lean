import Verif.Model.BufferManager

/-!
# A bounded byte queue

The abstract meaning of a buffer: its visible bytes, and its capacity. The operations are those of a plain list.
-/

set_option autoImplicit false

namespace RR32.Spec

/-- What a user of a buffer sees: the first `length()` bytes of `data()`. -/
def content (b : BufferManager) : List Byte := b.mem.take b.len

/-- The preconditions of the class: capacity is that of the memory handed to the constructor and fits `uint8_t`. -/
structure BufOk (b : BufferManager) : Prop where
  len_le : b.len ≤ b.cap
  cap_le : b.cap ≤ 255
  mem_le : b.cap ≤ b.mem.length

/-- Every byte behind the content, up to the capacity, is zero. -/
def ZeroTail (b : BufferManager) : Prop := (b.mem.take b.cap).drop b.len = List.replicate (b.cap - b.len) 0#8

/-- Operations on a family of buffers, as a user can write them. -/
inductive BufOp where
  | pushChar (i : Nat) (c : Byte)
  /-- append (a view of) another buffer -/
  | append (i j start stop : Nat)
  | move (i j : Nat)
  | pop (i n : Nat)
  | erase (i : Nat)
  /-- store a C string, given as characters and what lies behind the terminator -/
  | set (i : Nat) (text rest : List Byte)
  /-- `b.at(k) = c` -/
  | write (i k : Nat) (c : Byte)
  /-- read `b[k]` -/
  | read (i k : Nat)
  /-- search from an offset for one of the characters -/
  | find (i : Nat) (chars rest : List Byte) (offset : Nat)
  | findChar (i : Nat) (c : Byte) (offset : Nat)

/-- The lists after an operation. `cap i` is the capacity of buffer `i`. -/
def listStep (cap : Nat → Nat) (l : Nat → List Byte) : BufOp → Nat → List Byte
  | .pushChar i c => fun m => if m = i then (if (l i).length < cap i then l i ++ [c] else l i) else l m
  | .append i j start stop => fun m => if m = i then l i ++ (((l j).take stop).drop start).take (cap i - (l i).length) else l m
  | .move i j => fun m =>
      if m = j then (l j).drop (cap i - (l i).length)
      else if m = i then l i ++ (l j).take (cap i - (l i).length) else l m
  | .pop i n => fun m => if m = i then (l i).drop n else l m
  | .erase i => fun m => if m = i then [] else l m
  | .set i text _ => fun m => if m = i then text.take (cap i - 1) else l m
  | .write i k c => fun m => if m = i then (l i).set (min k ((l i).length - 1)) c else l m
  | .read _ _ | .find _ _ _ _ | .findChar _ _ _ => l

/-- What the user must respect: views are taken inside the content, a string is stored only in a buffer of capacity at least 1 and is
terminated, single bytes are read and written only in a buffer that is not empty, a buffer is not moved into itself. -/
def Legal (cap : Nat → Nat) (l : Nat → List Byte) : BufOp → Prop
  | .pushChar _ _ | .pop _ _ | .erase _ | .findChar _ _ _ => True
  | .append i j start stop => i ≠ j ∧ start ≤ stop ∧ stop ≤ (l j).length
  | .move i j => i ≠ j
  | .set i text _ => 1 ≤ cap i ∧ ∀ c ∈ text, c ≠ 0#8
  | .write i _ _ | .read i _ => l i ≠ []
  | .find _ chars _ _ => (∀ c ∈ chars, c ≠ 0#8) ∧ chars.length < 256

end RR32.Spec
