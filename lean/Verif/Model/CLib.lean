/-!
# Model of the C++ substrate

Bytes, fixed-width integers, undefined behaviour, and the C library functions the code calls. The C library has no source in
`/repo`; each definition says where the code calls it. A memory object is the list of its bytes, and running off the end of the
list is a fault. This is the trusted reading of the C standard.
-/

set_option autoImplicit false

namespace RR32

/-- `char` and `uint8_t` (only compared, shifted and copied in the code, so signedness of `char` never matters). -/
abbrev Byte := BitVec 8
/-- `uint16_t`. -/
abbrev U16 := BitVec 16
/-- `uint32_t`; also the value representation of an `int`-based scoped enum. -/
abbrev U32 := BitVec 32

/-- Undefined behaviour, one constructor per kind that can occur in the code. -/
inductive Fault where
  | nullDeref
  | uninitRead
  | oobRead
  | oobWrite
  | badShift
  | nonTermination
  deriving DecidableEq, Repr

/-- Result of a function that may run into undefined behaviour. -/
abbrev Res (α : Type) := Except Fault α

/-- Width of `long` in bits: 32 on the microcontrollers, 64 on a Linux PC (README.md:5-8). -/
structure Platform where
  longBits : Nat
  deriving DecidableEq, Repr

/-- The byte of an ASCII character literal. -/
def ch (c : Char) : Byte := BitVec.ofNat 8 c.toNat

/-- The bytes of a string literal, without the terminating NUL. -/
def str (s : String) : List Byte := s.toList.map ch

/-- A string literal as a memory object: the characters and the terminating NUL. -/
def lit (s : String) : List Byte := str s ++ [0#8]

/-- Reading a C string (`printf("%s")`, and the common part of the functions below): the bytes before the first NUL. Called at
lib/RR32Can/Locomotive.cpp:17,30, lib/RR32CanEngineDb/LocoListConsumer.cpp:27,38. -/
def cstr : List Byte → Res (List Byte)
  | [] => .error .oobRead
  | c :: cs => if c = 0#8 then .ok [] else do
      let r ← cstr cs
      .ok (c :: r)

/-- `strlen`. Called at lib/RR32Can/Station.cpp:170, lib/RR32CanEngineDb/util/BufferManager.cpp:30,72,
lib/RR32Can/util/constexpr.h:256. -/
def strlen (m : List Byte) : Res Nat := do
  let s ← cstr m
  .ok s.length

/-- The `n` bytes that `strncpy(_, src, n)` writes: the string, cut at `n`, padded with NULs. -/
def strncpyBytes : Nat → List Byte → Res (List Byte)
  | 0, _ => .ok []
  | _ + 1, [] => .error .oobRead
  | n + 1, c :: cs =>
      if c = 0#8 then .ok (List.replicate (n + 1) 0#8) else do
        let r ← strncpyBytes n cs
        .ok (c :: r)

/-- Overwrite the first `l.length` bytes of a memory object (`memcpy`, `memset`, `strncpy` destinations). -/
def poke (dst l : List Byte) : Res (List Byte) :=
  if l.length ≤ dst.length then .ok (l ++ dst.drop l.length) else .error .oobWrite

/-- `strncpy(dst, src, n)`. Called at lib/RR32Can/Station.cpp:117,163,171,179, lib/RR32Can/Locomotive.h:34,173,
lib/RR32CanEngineDb/util/BufferManager.cpp:71, lib/RR32Can/util/constexpr.h:251. -/
def strncpy (dst src : List Byte) (n : Nat) : Res (List Byte) := do
  let l ← strncpyBytes n src
  poke dst l

/-- `strncmp(a, b, n) == 0`. Called at lib/RR32Can/Locomotive.h:43, lib/RR32CanEngineDb/LocoConsumer.cpp:33,35,42,47,
lib/RR32CanEngineDb/util/BufferManager.h:41. -/
def strncmpEq : Nat → List Byte → List Byte → Res Bool
  | 0, _, _ => .ok true
  | n + 1, a :: as, b :: bs =>
      if a ≠ b then .ok false
      else if a = 0#8 then .ok true
      else strncmpEq n as bs
  | _ + 1, _, _ => .error .oobRead

/-- `memcmp(a, b, n) == 0`. Called at lib/RR32Can/messages/Data.h:33. Both regions must have `n` bytes (C17 7.24.4.1). -/
def memcmpEq (n : Nat) (a b : List Byte) : Res Bool :=
  if n ≤ a.length ∧ n ≤ b.length then .ok (a.take n == b.take n) else .error .oobRead

/-- Read one byte of a memory object. -/
def peek (m : List Byte) (i : Nat) : Res Byte :=
  match m[i]? with
  | some c => .ok c
  | none => .error .oobRead

/-- `isspace` in the C locale. -/
def isSpace (c : Byte) : Bool := c == 0x20#8 || (0x09#8 ≤ c && c ≤ 0x0D#8)

/-- Leading white space of `strtoul`/`strtol`. -/
def skipSpace : List Byte → Res (List Byte)
  | [] => .error .oobRead
  | c :: cs => if isSpace c then skipSpace cs else .ok (c :: cs)

/-- Value of a digit or letter in `strtoul`/`strtol`. -/
def digitVal (c : Byte) : Option Nat :=
  if 0x30#8 ≤ c ∧ c ≤ 0x39#8 then some (c.toNat - 0x30)
  else if 0x41#8 ≤ c ∧ c ≤ 0x5A#8 then some (c.toNat - 0x41 + 10)
  else if 0x61#8 ≤ c ∧ c ≤ 0x7A#8 then some (c.toNat - 0x61 + 10)
  else none

/-- The digits of `strtoul`/`strtol`: reads up to and including the first character that is not a digit of the base. -/
def digits (base : Nat) (acc : Nat) : List Byte → Res Nat
  | [] => .error .oobRead
  | c :: cs =>
      match digitVal c with
      | some d => if d < base then digits base (acc * base + d) cs else .ok acc
      | none => .ok acc

/-- Optional sign of `strtoul`/`strtol`. -/
def takeSign : List Byte → Res (Bool × List Byte)
  | [] => .error .oobRead
  | c :: cs => if c = ch '-' then .ok (true, cs) else if c = ch '+' then .ok (false, cs) else .ok (false, c :: cs)

/-- Optional `0x`/`0X` of base 16: part of the number only if a hexadecimal digit follows. -/
def takeHexPrefix : List Byte → Res (List Byte)
  | [] => .error .oobRead
  | c :: cs =>
      if c = ch '0' then
        match cs with
        | [] => .error .oobRead
        | x :: rest =>
            if x = ch 'x' ∨ x = ch 'X' then
              match rest with
              | [] => .error .oobRead
              | d :: _ =>
                  match digitVal d with
                  | some v => if v < 16 then .ok rest else .ok (c :: cs)
                  | none => .ok (c :: cs)
            else .ok (c :: cs)
      else .ok (c :: cs)

/-- `strtoul(m, NULL, 16)`: saturates at `ULONG_MAX`, a minus sign negates in the unsigned type. Called at
lib/RR32CanEngineDb/LocoConsumer.cpp:37,49. -/
def strtoul16 (pf : Platform) (m : List Byte) : Res Nat := do
  let m ← skipSpace m
  let (neg, m) ← takeSign m
  let m ← takeHexPrefix m
  let v ← digits 16 0 m
  let modulus := 2 ^ pf.longBits
  .ok (if modulus ≤ v then modulus - 1 else if neg then (modulus - v) % modulus else v)

/-- `strtol(m, nullptr, 10)`: saturates at `LONG_MIN`/`LONG_MAX`. Called at lib/RR32CanEngineDb/util/BufferManager.h:74. -/
def strtol10 (pf : Platform) (m : List Byte) : Res Int := do
  let m ← skipSpace m
  let (neg, m) ← takeSign m
  let v ← digits 10 0 m
  let half : Nat := 2 ^ (pf.longBits - 1)
  .ok (if neg then (if half < v then -(half : Int) else -(v : Int))
       else (if half ≤ v then (half : Int) - 1 else (v : Int)))

/-- `printf("%d", n)` / `snprintf("%d")` for a non-negative number: decimal digits, most significant first. Called at
lib/RR32Can/Station.cpp:122. -/
def decText (n : Nat) : List Byte :=
  if n < 10 then [BitVec.ofNat 8 (0x30 + n)]
  else decText (n / 10) ++ [BitVec.ofNat 8 (0x30 + n % 10)]
  termination_by n
  decreasing_by omega

/-- `snprintf(dst, n, text)`: writes at most `n - 1` characters and a NUL, returns the length of the whole text. Called at
lib/RR32Can/Station.cpp:122. -/
def snprintf (dst : List Byte) (n : Nat) (text : List Byte) : Res (List Byte × Nat) := do
  let d ← poke dst (if n = 0 then [] else text.take (n - 1) ++ [0#8])
  .ok (d, text.length)

end RR32
