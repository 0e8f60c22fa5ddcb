import Verif.Model.CLib

/-!
# Reading a console log

How a person reads the log: numbers with or without `0x`, and the value that follows a label. Independent of `printf`.
-/

set_option autoImplicit false

namespace RR32.Spec

/-- The value of a digit, up to base 16. -/
def hexDigit (c : Byte) : Option Nat :=
  let n := c.toNat
  if 48 ≤ n ∧ n ≤ 57 then some (n - 48)
  else if 65 ≤ n ∧ n ≤ 70 then some (n - 65 + 10)
  else if 97 ≤ n ∧ n ≤ 102 then some (n - 97 + 10)
  else none

/-- The number that the digits continue, `acc` being what was read so far. -/
def readDigits (base : Nat) : Nat → List Byte → Option Nat
  | acc, [] => some acc
  | acc, c :: cs =>
      match hexDigit c with
      | some d => if d < base then readDigits base (base * acc + d) cs else none
      | none => none

/-- A hexadecimal number, with or without `0x`. -/
def readHex (t : List Byte) : Option Nat :=
  match t with
  | [] => none
  | [c] => readDigits 16 0 [c]
  | c :: x :: rest => if c = 48#8 ∧ (x = 120#8 ∨ x = 88#8) then (if rest = [] then none else readDigits 16 0 rest)
      else readDigits 16 0 t

/-- A decimal number, with or without a minus sign. -/
def readDec (t : List Byte) : Option Int :=
  match t with
  | [] => none
  | c :: rest => if c = 45#8 then (if rest = [] then none else (readDigits 10 0 rest).map fun n : Nat => -(n : Int))
      else (readDigits 10 0 t).map fun n : Nat => (n : Int)

/-- The text behind the first occurrence of a label. -/
def after (label : List Byte) : List Byte → Option (List Byte)
  | [] => if label = [] then some [] else none
  | c :: cs => if label.isPrefixOf (c :: cs) then some ((c :: cs).drop label.length) else after label cs

/-- The word behind the first occurrence of a label: up to a space, a comma or the end of the line. -/
def value (label t : List Byte) : Option (List Byte) :=
  (after label t).map fun r =>
    (r.dropWhile (fun c => c == 32#8)).takeWhile (fun c => c != 32#8 && c != 44#8 && c != 10#8)

/-- The hexadecimal number behind a label. -/
def hexAfter (label : String) (t : List Byte) : Option Nat := (value (str label) t).bind readHex

/-- The decimal number behind a label. -/
def decAfter (label : String) (t : List Byte) : Option Int := (value (str label) t).bind readDec

/-- The words of a text, separated by single spaces. -/
def words : List Byte → List (List Byte)
  | [] => [[]]
  | c :: cs =>
      if c = 32#8 then [] :: words cs
      else match words cs with
        | [] => [[c]]
        | w :: ws => (c :: w) :: ws

/-- The bytes of a hex dump: every number is preceded by a space and is at most 255. -/
def readDump (t : List Byte) : Option (List Byte) :=
  match words t with
  | [] :: ws => ws.mapM fun w => (readHex w).bind fun n => if n < 256 then some (BitVec.ofNat 8 n) else none
  | _ => none

/-- A hexadecimal digit, lower case. -/
def hexLetter (n : Nat) : Byte := if n < 10 then BitVec.ofNat 8 (48 + n) else BitVec.ofNat 8 (87 + n)

/-- A byte in a dump: `00`, or `0x` and the digits without a leading zero. -/
def dumpByte (b : Byte) : List Byte :=
  let n := b.toNat
  if n = 0 then [48#8, 48#8]
  else [48#8, 120#8] ++ (if n < 16 then [] else [hexLetter (n / 16)]) ++ [hexLetter (n % 16)]

/-- What a turnout in a position looks like, for a reader of the log; nothing for positions that do not exist. -/
def positionWords (position : Byte) : List Byte :=
  match position.toNat with
  | 0 => str "(off, round, red)"
  | 1 => str "(on, straight, green)"
  | 2 => str "(yellow, left)"
  | 3 => str "(white)"
  | _ => []

/-- What the power of an accessory is, for a reader of the log. -/
def powerWords (power : Byte) : List Byte :=
  if power.toNat = 0 then str "(off, button release)" else str "(on, button press)"

/-- A log entry made of whole lines. -/
def WholeLines (t : List Byte) : Prop := t = [] ∨ t.getLast? = some 10#8

end RR32.Spec
