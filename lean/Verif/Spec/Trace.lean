import Verif.Model.Output
import Verif.Spec.Wire
import Verif.Spec.Engine

/-! # What is printed when logging is switched on -/

set_option autoImplicit false

namespace RR32.Spec

/-- `g'` has at least the switches of `g`. -/
structure LogConfig.Le (g g' : LogConfig) : Prop where
  events : g.events = true → g'.events = true
  packets : g.packets = true → g'.packets = true
  all : g.all = true → g'.all = true
  dump : g.dump = true → g'.dump = true
  rawIn : g.rawIn = true → g'.rawIn = true
  out : g.out = true → g'.out = true

/-- Text that depends on a switch. -/
def when (on : Bool) (t : List Byte) : List Byte := if on then t else []

/-- What is printed about a frame of a stream before it is looked at. -/
def arrival (g : LogConfig) (f : CanFrame) : List Byte :=
  let bytes := f.data.bytes.take f.data.dlc.toNat
  when g.rawIn (f.id.printAll ++ str "\n") ++
  when g.all (str "Config Data Stream.\n" ++ (bytes.flatMap fun b => ch ' ' :: hexZeros false 2 b.toNat) ++ str " '" ++ bytes ++ str "' ")

/-- What is printed about the first frame of a stream. -/
def announcement (g : LogConfig) (first : CanFrame) : List Byte :=
  arrival g first ++ when g.packets (str " Stream length: " ++ decText (announcedLength first.data) ++ str " Bytes. CRC requested: " ++
    hexZeros false 4 (announcedCrc first.data).toNat ++ str " CRC actual: 0xffff.\n" ++
    when (first.data.dlc == 7#8) (str "Compressed Data!\n"))

/-- What is printed about the data frames of a stream, besides what the consumer prints; `crc` is the announced checksum, `got` the data
received before. -/
inductive Trace (g : LogConfig) (crc : U16) : List Byte → List CanFrame → List Byte → Prop where
  | complete (got : List Byte) (f : CanFrame) (hc : IsCrcOf crc (got ++ payload [f.data])) :
      Trace g crc got [f] (arrival g f ++ when g.dump (payload [f.data]) ++ when g.events (str "Stream complete!\n"))
  | wrong (got : List Byte) (f : CanFrame) (actual : U16) (hc : IsCrcOf actual (got ++ payload [f.data])) (hne : actual ≠ crc) :
      Trace g crc got [f] (arrival g f ++ when g.dump (payload [f.data]) ++
        when g.events (str "CRC Error - Stream aborted. CRC requested: " ++ hexZeros false 4 crc.toNat ++ str ", CRC actual: " ++
          hexZeros false 4 actual.toNat ++ str ".\n"))
  | next (got : List Byte) (f : CanFrame) (rest : List CanFrame) (actual : U16) (t : List Byte) (hr : rest ≠ [])
      (hc : IsCrcOf actual (got ++ payload [f.data])) (ht : Trace g crc (got ++ payload [f.data]) rest t) :
      Trace g crc got (f :: rest) (arrival g f ++ when g.dump (payload [f.data]) ++
        when g.packets (str "Stream continues. Bytes remaining: " ++ decText (8 * rest.length) ++ str ", Current CRC: " ++
          hexZeros false 4 actual.toNat ++ str "\n") ++ t)

/-- What a consumer says about an entry it is given. -/
def entryLine (head : String) (e : Entry) : List Byte :=
  str head ++ str "::consumeConfigData(\"" ++ text e.sect ++ str "\", \"" ++ text e.key ++ str "\", \"" ++ text e.value ++ str "\")\n"

/-- What the consumer for an engine says about what it does with an entry. -/
def settingLine (e : Entry) : List Byte :=
  if SetsUid e then str "Setting UID\n" else if SetsProtocol e then str "Setting protocol\n" else if SetsAddress e then str "Setting Address\n"
  else []

end RR32.Spec
