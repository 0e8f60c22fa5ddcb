import Verif.Model.BufferManager

/-! # Buffers that share memory

A `BufferManager` does not own memory: it is a pointer with a length and a capacity (lib/RR32CanEngineDb/util/BufferManager.h:123-125).
Several may point into the same array: views made by `subBufferManager` (BufferManager.cpp:81-101), managers moved from others (the
defaulted move operations leave the source as it is, BufferManager.h:30-31), and managers constructed over parts of an array (:23-26). Here
the memory and the pointers are explicit. Each function works through its pointer exactly as in Verif.Model.BufferManager, on the memory from
the pointer to the end of the array; what is new is that others see it, and that `memcpy` and `strncpy` are undefined for overlapping ranges.
-/

set_option autoImplicit false

namespace RR32

/-- `BufferManager`, lib/RR32CanEngineDb/util/BufferManager.h:123-125: a pointer to byte `off` of array `obj`, length and capacity. -/
structure Mgr where
  obj : Nat
  off : Nat
  len : Nat
  cap : Nat
  deriving DecidableEq, Repr

/-- Undefined behaviour: as before, or a copy between overlapping ranges. -/
inductive ShareFault where
  | fault (f : Fault)
  | overlap
  deriving DecidableEq, Repr

abbrev SRes (α : Type) := Except ShareFault α

/-- A result of a function that copies nothing. -/
def SRes.of {α : Type} : Res α → SRes α
  | .ok x => .ok x
  | .error f => .error (.fault f)

/-- Whether two ranges of bytes have a byte in common. -/
def overlapping (obj off n obj' off' n' : Nat) : Bool :=
  obj = obj' && 0 < n && 0 < n' && off < off' + n' && off' < off + n

namespace Mgr

/-- What the functions of a manager see of the memory. -/
def look (m : Mgr) (heap : Nat → List Byte) : BufferManager := { mem := (heap m.obj).drop m.off, len := m.len, cap := m.cap }

/-- `subBufferManager(start, end)`, lib/RR32CanEngineDb/util/BufferManager.cpp:85-101. -/
def sub (m : Mgr) (start_offset end_offset : Nat) : Mgr :=
  let start_offset := if start_offset > m.cap then m.cap else start_offset
  let end_offset := if end_offset > m.cap then m.cap else end_offset
  let end_offset := if end_offset < start_offset then start_offset else end_offset
  { obj := m.obj, off := m.off + start_offset, len := u8 (end_offset - start_offset), cap := u8 (m.cap - start_offset) }

end Mgr

/-- A program's arrays, and its variables of type `BufferManager`. -/
structure Shared where
  heap : Nat → List Byte
  mgr : Nat → Mgr

/-- What a program can do with them. -/
inductive ShareOp where
  /-- `d = BufferManager(array + off, cap, len)`, lib/RR32CanEngineDb/util/BufferManager.h:23-26 -/
  | make (d obj off cap len : Nat)
  /-- `d = b.subBufferManager(start, stop)`, lib/RR32CanEngineDb/util/BufferManager.cpp:85-101 -/
  | sub (d i start stop : Nat)
  /-- `d = std::move(b)`, lib/RR32CanEngineDb/util/BufferManager.h:31 -/
  | assign (d i : Nat)
  | pushChar (i : Nat) (c : Byte)
  /-- `b.push_back(o)`, lib/RR32CanEngineDb/util/BufferManager.cpp:61-67 -/
  | append (i j : Nat)
  /-- `b.push_back(o.subBufferManager(start, stop))`, as in lib/RR32CanEngineDb/util/TextParser.cpp:158-159 -/
  | appendView (i j start stop : Nat)
  /-- `b.move_back(o)`, lib/RR32CanEngineDb/util/BufferManager.cpp:75-79 -/
  | move (i j : Nat)
  | pop (i n : Nat)
  | erase (i : Nat)
  /-- `b.set(text)` with a string constant -/
  | set (i : Nat) (text rest : List Byte)
  /-- `b.set(o.data())`, lib/RR32CanEngineDb/util/BufferManager.cpp:69-73 -/
  | setFrom (i j : Nat)
  | write (i k : Nat) (c : Byte)
  | read (i k : Nat)
  | find (i : Nat) (chars rest : List Byte) (offset : Nat)
  | findChar (i : Nat) (c : Byte) (offset : Nat)

namespace Shared

/-- Variable `i`, with the memory it sees. -/
def buf (s : Shared) (i : Nat) : BufferManager := (s.mgr i).look s.heap

/-- The memory and the length after a function of variable `i`. None changes pointer or capacity. -/
def put (s : Shared) (i : Nat) (b : BufferManager) : Shared :=
  { heap := fun o => if o = (s.mgr i).obj then (s.heap o).take (s.mgr i).off ++ b.mem else s.heap o,
    mgr := fun m => if m = i then { s.mgr i with len := b.len } else s.mgr m }

/-- A variable gets a new value. -/
def setMgr (s : Shared) (d : Nat) (m : Mgr) : Shared := { s with mgr := fun x => if x = d then m else s.mgr x }

/-- `push_back(const BufferManager&)`, lib/RR32CanEngineDb/util/BufferManager.cpp:61-67. -/
def pushFrom (s : Shared) (i : Nat) (other : Mgr) : SRes (Shared × Nat) := do
  let b := s.buf i
  let bytesToCopy := if b.capacity_remaining < other.len then b.capacity_remaining else other.len
  if overlapping (s.mgr i).obj ((s.mgr i).off + b.len) bytesToCopy other.obj other.off bytesToCopy then .error .overlap
  else
    let (b, n) ← SRes.of (b.push_back (other.look s.heap))
    .ok (s.put i b, n)

/-- `pop_front`, lib/RR32CanEngineDb/util/BufferManager.cpp:51-59. `memmove` may overlap. -/
def popAt (s : Shared) (i n : Nat) : SRes Shared := do
  let b ← SRes.of ((s.buf i).pop_front n)
  .ok (s.put i b)

/-- `set(o.data())`, lib/RR32CanEngineDb/util/BufferManager.cpp:69-73: the string is read after `erase`. `strncpy` reads it up to its
terminator, at most capacity − 1 bytes. -/
def setFromAt (s : Shared) (i j : Nat) : SRes Shared := do
  let b ← SRes.of (s.buf i).erase
  let s := s.put i b
  if b.cap = 0 then .error (.fault .oobWrite)
  else
    let source := (s.buf j).mem
    let l ← SRes.of (strncpyBytes (b.cap - 1) source)
    let bytesRead := min (b.cap - 1) ((source.takeWhile (· ≠ 0#8)).length + 1)
    if overlapping (s.mgr i).obj (s.mgr i).off (b.cap - 1) (s.mgr j).obj (s.mgr j).off bytesRead then .error .overlap
    else
      let mem ← SRes.of (poke b.mem l)
      let n ← SRes.of (strlen mem)
      .ok (s.put i { b with mem := mem, len := u8 n })

/-- One step of a program. -/
def step (s : Shared) : ShareOp → SRes Shared
  | .make d obj off cap len => .ok (s.setMgr d { obj := obj, off := off, len := len, cap := cap })
  | .sub d i start stop => .ok (s.setMgr d ((s.mgr i).sub start stop))
  | .assign d i => .ok (s.setMgr d (s.mgr i))
  | .pushChar i c => do
      let (b, _) ← SRes.of ((s.buf i).push_back_char c)
      .ok (s.put i b)
  | .append i j => do
      let (s, _) ← s.pushFrom i (s.mgr j)
      .ok s
  | .appendView i j start stop => do
      let (s, _) ← s.pushFrom i ((s.mgr j).sub start stop)
      .ok s
  | .move i j => do
      let (s, n) ← s.pushFrom i (s.mgr j)
      s.popAt j n
  | .pop i n => s.popAt i n
  | .erase i => do
      let b ← SRes.of (s.buf i).erase
      .ok (s.put i b)
  | .set i text rest => do
      let b ← SRes.of ((s.buf i).set (text ++ 0#8 :: rest))
      .ok (s.put i b)
  | .setFrom i j => s.setFromAt i j
  | .write i k c => do
      let b ← SRes.of ((s.buf i).setAt k c)
      .ok (s.put i b)
  | .read i k => do
      let _ ← SRes.of ((s.buf i).get k)
      .ok s
  | .find i chars rest offset => do
      let _ ← SRes.of ((s.buf i).findFirstOf (chars ++ 0#8 :: rest) offset)
      .ok s
  | .findChar i c offset => do
      let _ ← SRes.of ((s.buf i).findFirstOfChar c offset)
      .ok s

/-- A program. -/
def run (s : Shared) (ops : List ShareOp) : SRes Shared := ops.foldlM step s

end Shared

end RR32
