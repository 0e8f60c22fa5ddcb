import Verif.Model.CLib

/-! # BufferManager (lib/RR32CanEngineDb/util/BufferManager.h, lib/RR32CanEngineDb/util/BufferManager.cpp) -/

set_option autoImplicit false

namespace RR32

/-- Overwrite `l.length` bytes of a memory object from offset `off` (`memcpy`, `memmove`, `memset` destinations). -/
def pokeAt (dst : List Byte) (off : Nat) (l : List Byte) : Res (List Byte) :=
  if off + l.length ≤ dst.length then .ok (dst.take off ++ l ++ dst.drop (off + l.length)) else .error .oobWrite

/-- The bytes `memcpy`/`memmove` reads: `n` bytes of a memory object from offset `off`. -/
def peekAt (src : List Byte) (off n : Nat) : Res (List Byte) :=
  if off + n ≤ src.length then .ok ((src.drop off).take n) else .error .oobRead

/-- Conversion to `size_type = uint8_t`, lib/RR32CanEngineDb/util/BufferManager.h:17. -/
def u8 (n : Nat) : Nat := n % 256

/-- `BufferManager`, lib/RR32CanEngineDb/util/BufferManager.h:14,123-125. `mem` is the memory from `buffer_` to the end of the
object it points into; a null pointer with capacity 0 is `[]`. -/
structure BufferManager where
  mem : List Byte
  len : Nat
  cap : Nat
  deriving DecidableEq, Repr

namespace BufferManager

/-- lib/RR32CanEngineDb/util/BufferManager.h:19 -/
def npos : Nat := 255

/-- `BufferManager(buffer, bufferLength)`, lib/RR32CanEngineDb/util/BufferManager.h:23. -/
def construct (buffer : List Byte) (bufferLength : Nat) : BufferManager := { mem := buffer, len := 0, cap := bufferLength }

/-- `capacity_remaining`, lib/RR32CanEngineDb/util/BufferManager.h:64. -/
def capacity_remaining (b : BufferManager) : Nat := u8 (b.cap + 256 - b.len)

/-- `full`, lib/RR32CanEngineDb/util/BufferManager.h:66. -/
def full (b : BufferManager) : Bool := b.capacity_remaining == 0

/-- `empty`, lib/RR32CanEngineDb/util/BufferManager.h:68. -/
def empty (b : BufferManager) : Bool := b.len == 0

/-- `limitIndex`, lib/RR32CanEngineDb/util/BufferManager.h:35-37. -/
def limitIndex (b : BufferManager) (index : Nat) : Nat := if index ≥ b.len then u8 (b.len + 256 - 1) else index

/-- `operator[]`, lib/RR32CanEngineDb/util/BufferManager.h:39. -/
def get (b : BufferManager) (index : Nat) : Res Byte := peek b.mem (b.limitIndex index)

/-- A write through the reference returned by `at`, lib/RR32CanEngineDb/util/BufferManager.h:49. -/
def setAt (b : BufferManager) (index : Nat) (c : Byte) : Res BufferManager := do
  let mem ← pokeAt b.mem (b.limitIndex index) [c]
  .ok { b with mem := mem }

/-- `strncmp`, lib/RR32CanEngineDb/util/BufferManager.h:41. -/
def strncmp (b : BufferManager) (other : List Byte) : Res Bool := strncmpEq b.len b.mem other

/-- `asUint8`, lib/RR32CanEngineDb/util/BufferManager.h:74. -/
def asUint8 (pf : Platform) (b : BufferManager) : Res Byte := do
  let v ← strtol10 pf b.mem
  .ok (BitVec.ofInt 8 v)

/-- The search loop of `findFirstOf`: `n` more turns from index `i`; lib/RR32CanEngineDb/util/BufferManager.cpp:17-22,32-39. -/
def findLoop (m : List Byte) (p : Byte → Bool) : Nat → Nat → Res Nat
  | 0, _ => .ok npos
  | n + 1, i => do
      let c ← peek m i
      if p c then .ok i else findLoop m p n (i + 1)

/-- `findFirstOf(char, offset)`, lib/RR32CanEngineDb/util/BufferManager.cpp:13-23. -/
def findFirstOfChar (b : BufferManager) (character : Byte) (offset : Nat) : Res Nat :=
  if offset ≥ b.len then .ok npos else findLoop b.mem (fun c => c == character) (b.len - offset) offset

/-- `findFirstOf(const char*, offset)`, lib/RR32CanEngineDb/util/BufferManager.cpp:25-40. The inner loop compares with the first
`numChars` characters. -/
def findFirstOf (b : BufferManager) (chars : List Byte) (offset : Nat) : Res Nat :=
  if offset ≥ b.len then .ok npos
  else do
    let n ← strlen chars
    let numChars := u8 n
    findLoop b.mem (fun c => (chars.take numChars).contains c) (b.len - offset) offset

/-- `erase`, lib/RR32CanEngineDb/util/BufferManager.cpp:42-45. -/
def erase (b : BufferManager) : Res BufferManager := do
  let mem ← pokeAt b.mem 0 (List.replicate b.cap 0#8)
  .ok { b with mem := mem, len := 0 }

/-- `pop_front`, lib/RR32CanEngineDb/util/BufferManager.cpp:51-59. -/
def pop_front (b : BufferManager) (num_elements : Nat) : Res BufferManager :=
  if num_elements ≥ b.len then b.erase
  else do
    let b := { b with len := b.len - num_elements }
    let moved ← peekAt b.mem num_elements b.len
    let mem ← pokeAt b.mem 0 moved
    let mem ← pokeAt mem b.len (List.replicate b.capacity_remaining 0#8)
    .ok { b with mem := mem }

/-- `push_back(const BufferManager&)`, lib/RR32CanEngineDb/util/BufferManager.cpp:61-67. -/
def push_back (b other : BufferManager) : Res (BufferManager × Nat) := do
  let bytesToCopy := if b.capacity_remaining < other.len then b.capacity_remaining else other.len
  let src ← peekAt other.mem 0 bytesToCopy
  let mem ← pokeAt b.mem b.len src
  .ok ({ b with mem := mem, len := u8 (b.len + bytesToCopy) }, bytesToCopy)

/-- `push_back(char)`, lib/RR32CanEngineDb/util/BufferManager.h:93-101. -/
def push_back_char (b : BufferManager) (c : Byte) : Res (BufferManager × Nat) :=
  if b.len < b.cap then do
    let mem ← pokeAt b.mem b.len [c]
    .ok ({ b with mem := mem, len := u8 (b.len + 1) }, 1)
  else .ok (b, 0)

/-- `set`, lib/RR32CanEngineDb/util/BufferManager.cpp:69-73. With capacity 0 the length argument of `strncpy` is −1 converted to
`size_t`: it writes out of bounds. -/
def set (b : BufferManager) (text : List Byte) : Res BufferManager := do
  let b ← b.erase
  if b.cap = 0 then .error .oobWrite
  else
    let mem ← strncpy b.mem text (b.cap - 1)
    let n ← strlen mem
    .ok { b with mem := mem, len := u8 n }

/-- `move_back`, lib/RR32CanEngineDb/util/BufferManager.cpp:75-79: the new receiver, the new argument, the number moved. -/
def move_back (b other : BufferManager) : Res (BufferManager × BufferManager × Nat) := do
  let (b, movedBytes) ← b.push_back other
  let other ← other.pop_front movedBytes
  .ok (b, other, movedBytes)

/-- `subBufferManager(start, end)`, lib/RR32CanEngineDb/util/BufferManager.cpp:85-101. The view shares memory in C++; here it is a
copy, which is exact as long as it is only read (as its comment demands, BufferManager.h:116-117). -/
def subBufferManager (b : BufferManager) (start_offset end_offset : Nat) : BufferManager :=
  let start_offset := if start_offset > b.cap then b.cap else start_offset
  let end_offset := if end_offset > b.cap then b.cap else end_offset
  let end_offset := if end_offset < start_offset then start_offset else end_offset
  { mem := b.mem.drop start_offset, len := u8 (end_offset - start_offset), cap := u8 (b.cap - start_offset) }

/-- `subBufferManager(start)`, lib/RR32CanEngineDb/util/BufferManager.cpp:81-83. -/
def subBufferManagerFrom (b : BufferManager) (start_offset : Nat) : BufferManager :=
  b.subBufferManager start_offset b.len

end BufferManager

end RR32
