import Verif.Model.CLib

/-! # The stream texts the repository's tests use (test/data/ConfigData.cpp) -/

set_option autoImplicit false

namespace RR32.Tests

/-- test/data/ConfigData.cpp:5-8. The arrays have nine bytes; the rest of the last one is zero. -/
def testData1 : List (List Byte) :=
  [lit "[lokname", lit "n]\n  .we", lit "rt=BR 96", lit " 1234\n  ", lit ".wert=ET", lit " 515\n[nu", lit "mloks]\n ", lit " .wert=1",
   lit "2\n" ++ List.replicate 6 0#8]

/-- test/data/ConfigData.cpp:11-153 -/
def testData2 : List (List Byte) :=
  [[0x5B#8, 0x6C#8, 0x6F#8, 0x6B#8, 0x6F#8, 0x6D#8, 0x6F#8, 0x74#8],
   [0x69#8, 0x76#8, 0x65#8, 0x5D#8, 0x0A#8, 0x20#8, 0x20#8, 0x20#8],
   [0x6C#8, 0x6F#8, 0x6B#8, 0x0A#8, 0x20#8, 0x20#8, 0x20#8, 0x20#8],
   [0x20#8, 0x2E#8, 0x75#8, 0x69#8, 0x64#8, 0x3D#8, 0x30#8, 0x78#8],
   [0x63#8, 0x30#8, 0x30#8, 0x61#8, 0x0A#8, 0x20#8, 0x20#8, 0x20#8],
   [0x20#8, 0x2E#8, 0x6E#8, 0x61#8, 0x6D#8, 0x65#8, 0x3D#8, 0x39#8],
   [0x38#8, 0x20#8, 0x31#8, 0x30#8, 0x30#8, 0x31#8, 0x0A#8, 0x20#8],
   [0x20#8, 0x2E#8, 0x61#8, 0x64#8, 0x72#8, 0x65#8, 0x73#8, 0x73#8],
   [0x65#8, 0x3D#8, 0x30#8, 0x78#8, 0x61#8, 0x0A#8, 0x20#8, 0x20#8],
   [0x20#8, 0x2E#8, 0x74#8, 0x79#8, 0x70#8, 0x3D#8, 0x64#8, 0x63#8],
   [0x63#8, 0x0A#8, 0x20#8, 0x20#8, 0x20#8, 0x20#8, 0x20#8, 0x20#8],
   [0x20#8, 0x2E#8, 0x6D#8, 0x66#8, 0x78#8, 0x75#8, 0x69#8, 0x64#8],
   [0x3D#8, 0x30#8, 0x78#8, 0x31#8, 0x0A#8, 0x20#8, 0x20#8, 0x20#8],
   [0x20#8, 0x2E#8, 0x73#8, 0x79#8, 0x6D#8, 0x62#8, 0x6F#8, 0x6C#8],
   [0x3D#8, 0x32#8, 0x32#8, 0x0A#8, 0x20#8, 0x20#8, 0x20#8, 0x20#8],
   [0x20#8, 0x2E#8, 0x73#8, 0x79#8, 0x6D#8, 0x62#8, 0x6F#8, 0x6C#8],
   [0x3D#8, 0x32#8, 0x32#8, 0x0A#8, 0x20#8, 0x20#8, 0x20#8, 0x20#8],
   [0x20#8, 0x2E#8, 0x61#8, 0x76#8, 0x3D#8, 0x36#8, 0x30#8, 0x0A#8],
   [0x20#8, 0x2E#8, 0x62#8, 0x76#8, 0x3D#8, 0x34#8, 0x30#8, 0x0A#8],
   [0x20#8, 0x2E#8, 0x76#8, 0x6F#8, 0x6C#8, 0x75#8, 0x6D#8, 0x65#8],
   [0x3D#8, 0x31#8, 0x30#8, 0x30#8, 0x0A#8, 0x20#8, 0x20#8, 0x20#8],
   [0x20#8, 0x2E#8, 0x76#8, 0x65#8, 0x6C#8, 0x6F#8, 0x63#8, 0x69#8],
   [0x74#8, 0x79#8, 0x3D#8, 0x30#8, 0x0A#8, 0x20#8, 0x20#8, 0x20#8],
   [0x20#8, 0x2E#8, 0x72#8, 0x69#8, 0x63#8, 0x68#8, 0x74#8, 0x75#8],
   [0x6E#8, 0x67#8, 0x3D#8, 0x30#8, 0x0A#8, 0x20#8, 0x20#8, 0x20#8],
   [0x20#8, 0x2E#8, 0x76#8, 0x6D#8, 0x61#8, 0x78#8, 0x3D#8, 0x32#8],
   [0x35#8, 0x35#8, 0x0A#8, 0x20#8, 0x20#8, 0x20#8, 0x20#8, 0x20#8],
   [0x20#8, 0x2E#8, 0x76#8, 0x6D#8, 0x69#8, 0x6E#8, 0x3D#8, 0x31#8],
   [0x33#8, 0x0A#8, 0x20#8, 0x20#8, 0x20#8, 0x20#8, 0x20#8, 0x20#8],
   [0x20#8, 0x2E#8, 0x66#8, 0x6B#8, 0x74#8, 0x0A#8, 0x20#8, 0x20#8],
   [0x20#8, 0x2E#8, 0x2E#8, 0x74#8, 0x79#8, 0x70#8, 0x3D#8, 0x34#8],
   [0x0A#8, 0x20#8, 0x20#8, 0x20#8, 0x20#8, 0x20#8, 0x20#8, 0x20#8],
   [0x20#8, 0x2E#8, 0x2E#8, 0x64#8, 0x61#8, 0x75#8, 0x65#8, 0x72#8],
   [0x3D#8, 0x30#8, 0x0A#8, 0x20#8, 0x20#8, 0x20#8, 0x20#8, 0x20#8],
   [0x20#8, 0x2E#8, 0x2E#8, 0x77#8, 0x65#8, 0x72#8, 0x74#8, 0x3D#8],
   [0x30#8, 0x0A#8, 0x20#8, 0x20#8, 0x20#8, 0x20#8, 0x20#8, 0x20#8],
   [0x20#8, 0x2E#8, 0x66#8, 0x6B#8, 0x74#8, 0x0A#8, 0x20#8, 0x20#8],
   [0x20#8, 0x2E#8, 0x2E#8, 0x74#8, 0x79#8, 0x70#8, 0x3D#8, 0x35#8],
   [0x31#8, 0x0A#8, 0x20#8, 0x20#8, 0x20#8, 0x20#8, 0x20#8, 0x20#8],
   [0x20#8, 0x2E#8, 0x2E#8, 0x64#8, 0x61#8, 0x75#8, 0x65#8, 0x72#8],
   [0x3D#8, 0x30#8, 0x0A#8, 0x20#8, 0x20#8, 0x20#8, 0x20#8, 0x20#8],
   [0x20#8, 0x2E#8, 0x2E#8, 0x77#8, 0x65#8, 0x72#8, 0x74#8, 0x3D#8],
   [0x30#8, 0x0A#8, 0x20#8, 0x20#8, 0x20#8, 0x20#8, 0x20#8, 0x20#8],
   [0x20#8, 0x2E#8, 0x66#8, 0x6B#8, 0x74#8, 0x0A#8, 0x20#8, 0x20#8],
   [0x20#8, 0x2E#8, 0x2E#8, 0x74#8, 0x79#8, 0x70#8, 0x3D#8, 0x35#8],
   [0x32#8, 0x0A#8, 0x20#8, 0x20#8, 0x20#8, 0x20#8, 0x20#8, 0x20#8],
   [0x20#8, 0x2E#8, 0x2E#8, 0x64#8, 0x61#8, 0x75#8, 0x65#8, 0x72#8],
   [0x3D#8, 0x30#8, 0x0A#8, 0x20#8, 0x20#8, 0x20#8, 0x20#8, 0x20#8],
   [0x20#8, 0x2E#8, 0x2E#8, 0x77#8, 0x65#8, 0x72#8, 0x74#8, 0x3D#8],
   [0x30#8, 0x0A#8, 0x20#8, 0x20#8, 0x20#8, 0x20#8, 0x20#8, 0x20#8],
   [0x20#8, 0x2E#8, 0x66#8, 0x6B#8, 0x74#8, 0x0A#8, 0x20#8, 0x20#8],
   [0x20#8, 0x2E#8, 0x2E#8, 0x74#8, 0x79#8, 0x70#8, 0x3D#8, 0x35#8],
   [0x33#8, 0x0A#8, 0x20#8, 0x20#8, 0x20#8, 0x20#8, 0x20#8, 0x20#8],
   [0x20#8, 0x2E#8, 0x2E#8, 0x64#8, 0x61#8, 0x75#8, 0x65#8, 0x72#8],
   [0x3D#8, 0x30#8, 0x0A#8, 0x20#8, 0x20#8, 0x20#8, 0x20#8, 0x20#8],
   [0x20#8, 0x2E#8, 0x2E#8, 0x77#8, 0x65#8, 0x72#8, 0x74#8, 0x3D#8],
   [0x30#8, 0x0A#8, 0x20#8, 0x20#8, 0x20#8, 0x20#8, 0x20#8, 0x20#8],
   [0x20#8, 0x2E#8, 0x66#8, 0x6B#8, 0x74#8, 0x0A#8, 0x20#8, 0x20#8],
   [0x20#8, 0x2E#8, 0x2E#8, 0x74#8, 0x79#8, 0x70#8, 0x3D#8, 0x38#8],
   [0x0A#8, 0x20#8, 0x20#8, 0x20#8, 0x20#8, 0x20#8, 0x20#8, 0x20#8],
   [0x20#8, 0x2E#8, 0x2E#8, 0x64#8, 0x61#8, 0x75#8, 0x65#8, 0x72#8],
   [0x3D#8, 0x30#8, 0x0A#8, 0x20#8, 0x20#8, 0x20#8, 0x20#8, 0x20#8],
   [0x20#8, 0x2E#8, 0x2E#8, 0x77#8, 0x65#8, 0x72#8, 0x74#8, 0x3D#8],
   [0x30#8, 0x0A#8, 0x20#8, 0x20#8, 0x20#8, 0x20#8, 0x20#8, 0x20#8],
   [0x20#8, 0x2E#8, 0x66#8, 0x6B#8, 0x74#8, 0x0A#8, 0x20#8, 0x20#8],
   [0x20#8, 0x2E#8, 0x2E#8, 0x74#8, 0x79#8, 0x70#8, 0x3D#8, 0x30#8],
   [0x0A#8, 0x20#8, 0x20#8, 0x20#8, 0x20#8, 0x20#8, 0x20#8, 0x20#8],
   [0x20#8, 0x2E#8, 0x2E#8, 0x64#8, 0x61#8, 0x75#8, 0x65#8, 0x72#8],
   [0x3D#8, 0x30#8, 0x0A#8, 0x20#8, 0x20#8, 0x20#8, 0x20#8, 0x20#8],
   [0x20#8, 0x2E#8, 0x2E#8, 0x77#8, 0x65#8, 0x72#8, 0x74#8, 0x3D#8],
   [0x30#8, 0x0A#8, 0x20#8, 0x20#8, 0x20#8, 0x20#8, 0x20#8, 0x20#8],
   [0x20#8, 0x2E#8, 0x66#8, 0x6B#8, 0x74#8, 0x0A#8, 0x20#8, 0x20#8],
   [0x20#8, 0x2E#8, 0x2E#8, 0x74#8, 0x79#8, 0x70#8, 0x3D#8, 0x30#8],
   [0x0A#8, 0x20#8, 0x20#8, 0x20#8, 0x20#8, 0x20#8, 0x20#8, 0x20#8],
   [0x20#8, 0x2E#8, 0x2E#8, 0x64#8, 0x61#8, 0x75#8, 0x65#8, 0x72#8],
   [0x3D#8, 0x30#8, 0x0A#8, 0x20#8, 0x20#8, 0x20#8, 0x20#8, 0x20#8],
   [0x20#8, 0x2E#8, 0x2E#8, 0x77#8, 0x65#8, 0x72#8, 0x74#8, 0x3D#8],
   [0x30#8, 0x0A#8, 0x20#8, 0x20#8, 0x20#8, 0x20#8, 0x20#8, 0x20#8],
   [0x20#8, 0x2E#8, 0x66#8, 0x6B#8, 0x74#8, 0x0A#8, 0x20#8, 0x20#8],
   [0x20#8, 0x2E#8, 0x2E#8, 0x74#8, 0x79#8, 0x70#8, 0x3D#8, 0x30#8],
   [0x0A#8, 0x20#8, 0x20#8, 0x20#8, 0x20#8, 0x20#8, 0x20#8, 0x20#8],
   [0x20#8, 0x2E#8, 0x2E#8, 0x64#8, 0x61#8, 0x75#8, 0x65#8, 0x72#8],
   [0x3D#8, 0x30#8, 0x0A#8, 0x20#8, 0x20#8, 0x20#8, 0x20#8, 0x20#8],
   [0x20#8, 0x2E#8, 0x2E#8, 0x77#8, 0x65#8, 0x72#8, 0x74#8, 0x3D#8],
   [0x30#8, 0x0A#8, 0x20#8, 0x20#8, 0x20#8, 0x20#8, 0x20#8, 0x20#8],
   [0x20#8, 0x2E#8, 0x66#8, 0x6B#8, 0x74#8, 0x0A#8, 0x20#8, 0x20#8],
   [0x20#8, 0x2E#8, 0x2E#8, 0x74#8, 0x79#8, 0x70#8, 0x3D#8, 0x30#8],
   [0x0A#8, 0x20#8, 0x20#8, 0x20#8, 0x20#8, 0x20#8, 0x20#8, 0x20#8],
   [0x20#8, 0x2E#8, 0x2E#8, 0x64#8, 0x61#8, 0x75#8, 0x65#8, 0x72#8],
   [0x3D#8, 0x30#8, 0x0A#8, 0x20#8, 0x20#8, 0x20#8, 0x20#8, 0x20#8],
   [0x20#8, 0x2E#8, 0x2E#8, 0x77#8, 0x65#8, 0x72#8, 0x74#8, 0x3D#8],
   [0x30#8, 0x0A#8, 0x20#8, 0x20#8, 0x20#8, 0x20#8, 0x20#8, 0x20#8],
   [0x20#8, 0x2E#8, 0x66#8, 0x6B#8, 0x74#8, 0x0A#8, 0x20#8, 0x20#8],
   [0x20#8, 0x2E#8, 0x2E#8, 0x74#8, 0x79#8, 0x70#8, 0x3D#8, 0x30#8],
   [0x0A#8, 0x20#8, 0x20#8, 0x20#8, 0x20#8, 0x20#8, 0x20#8, 0x20#8],
   [0x20#8, 0x2E#8, 0x2E#8, 0x64#8, 0x61#8, 0x75#8, 0x65#8, 0x72#8],
   [0x3D#8, 0x30#8, 0x0A#8, 0x20#8, 0x20#8, 0x20#8, 0x20#8, 0x20#8],
   [0x20#8, 0x2E#8, 0x2E#8, 0x77#8, 0x65#8, 0x72#8, 0x74#8, 0x3D#8],
   [0x30#8, 0x0A#8, 0x20#8, 0x20#8, 0x20#8, 0x20#8, 0x20#8, 0x20#8],
   [0x20#8, 0x2E#8, 0x66#8, 0x6B#8, 0x74#8, 0x0A#8, 0x20#8, 0x20#8],
   [0x20#8, 0x2E#8, 0x2E#8, 0x74#8, 0x79#8, 0x70#8, 0x3D#8, 0x30#8],
   [0x0A#8, 0x20#8, 0x20#8, 0x20#8, 0x20#8, 0x20#8, 0x20#8, 0x20#8],
   [0x20#8, 0x2E#8, 0x2E#8, 0x64#8, 0x61#8, 0x75#8, 0x65#8, 0x72#8],
   [0x3D#8, 0x30#8, 0x0A#8, 0x20#8, 0x20#8, 0x20#8, 0x20#8, 0x20#8],
   [0x20#8, 0x2E#8, 0x2E#8, 0x77#8, 0x65#8, 0x72#8, 0x74#8, 0x3D#8],
   [0x30#8, 0x0A#8, 0x20#8, 0x20#8, 0x20#8, 0x20#8, 0x20#8, 0x20#8],
   [0x20#8, 0x2E#8, 0x66#8, 0x6B#8, 0x74#8, 0x0A#8, 0x20#8, 0x20#8],
   [0x20#8, 0x2E#8, 0x2E#8, 0x74#8, 0x79#8, 0x70#8, 0x3D#8, 0x30#8],
   [0x0A#8, 0x20#8, 0x20#8, 0x20#8, 0x20#8, 0x20#8, 0x20#8, 0x20#8],
   [0x20#8, 0x2E#8, 0x2E#8, 0x64#8, 0x61#8, 0x75#8, 0x65#8, 0x72#8],
   [0x3D#8, 0x30#8, 0x0A#8, 0x20#8, 0x20#8, 0x20#8, 0x20#8, 0x20#8],
   [0x20#8, 0x2E#8, 0x2E#8, 0x77#8, 0x65#8, 0x72#8, 0x74#8, 0x3D#8],
   [0x30#8, 0x0A#8, 0x20#8, 0x20#8, 0x20#8, 0x20#8, 0x20#8, 0x20#8],
   [0x20#8, 0x2E#8, 0x66#8, 0x6B#8, 0x74#8, 0x0A#8, 0x20#8, 0x20#8],
   [0x20#8, 0x2E#8, 0x2E#8, 0x74#8, 0x79#8, 0x70#8, 0x3D#8, 0x30#8],
   [0x0A#8, 0x20#8, 0x20#8, 0x20#8, 0x20#8, 0x20#8, 0x20#8, 0x20#8],
   [0x20#8, 0x2E#8, 0x2E#8, 0x64#8, 0x61#8, 0x75#8, 0x65#8, 0x72#8],
   [0x3D#8, 0x30#8, 0x0A#8, 0x20#8, 0x20#8, 0x20#8, 0x20#8, 0x20#8],
   [0x20#8, 0x2E#8, 0x2E#8, 0x77#8, 0x65#8, 0x72#8, 0x74#8, 0x3D#8],
   [0x30#8, 0x0A#8, 0x20#8, 0x20#8, 0x20#8, 0x20#8, 0x20#8, 0x20#8],
   [0x20#8, 0x2E#8, 0x66#8, 0x6B#8, 0x74#8, 0x0A#8, 0x20#8, 0x20#8],
   [0x20#8, 0x2E#8, 0x2E#8, 0x74#8, 0x79#8, 0x70#8, 0x3D#8, 0x30#8],
   [0x0A#8, 0x20#8, 0x20#8, 0x20#8, 0x20#8, 0x20#8, 0x20#8, 0x20#8],
   [0x20#8, 0x2E#8, 0x2E#8, 0x64#8, 0x61#8, 0x75#8, 0x65#8, 0x72#8],
   [0x3D#8, 0x30#8, 0x0A#8, 0x20#8, 0x20#8, 0x20#8, 0x20#8, 0x20#8],
   [0x20#8, 0x2E#8, 0x2E#8, 0x77#8, 0x65#8, 0x72#8, 0x74#8, 0x3D#8],
   [0x30#8, 0x0A#8, 0x20#8, 0x20#8, 0x20#8, 0x20#8, 0x20#8, 0x20#8],
   [0x20#8, 0x2E#8, 0x66#8, 0x6B#8, 0x74#8, 0x0A#8, 0x20#8, 0x20#8],
   [0x20#8, 0x2E#8, 0x2E#8, 0x74#8, 0x79#8, 0x70#8, 0x3D#8, 0x30#8],
   [0x0A#8, 0x20#8, 0x20#8, 0x20#8, 0x20#8, 0x20#8, 0x20#8, 0x20#8],
   [0x20#8, 0x2E#8, 0x2E#8, 0x64#8, 0x61#8, 0x75#8, 0x65#8, 0x72#8],
   [0x3D#8, 0x30#8, 0x0A#8, 0x20#8, 0x20#8, 0x20#8, 0x20#8, 0x20#8],
   [0x20#8, 0x2E#8, 0x2E#8, 0x77#8, 0x65#8, 0x72#8, 0x74#8, 0x3D#8],
   [0x30#8, 0x0A#8, 0x20#8, 0x20#8, 0x20#8, 0x20#8, 0x20#8, 0x20#8],
   [0x20#8, 0x2E#8, 0x66#8, 0x6B#8, 0x74#8, 0x0A#8, 0x20#8, 0x20#8],
   [0x20#8, 0x2E#8, 0x2E#8, 0x74#8, 0x79#8, 0x70#8, 0x3D#8, 0x30#8],
   [0x0A#8, 0x20#8, 0x20#8, 0x20#8, 0x20#8, 0x20#8, 0x20#8, 0x20#8],
   [0x20#8, 0x2E#8, 0x2E#8, 0x64#8, 0x61#8, 0x75#8, 0x65#8, 0x72#8],
   [0x3D#8, 0x30#8, 0x0A#8, 0x20#8, 0x20#8, 0x20#8, 0x20#8, 0x20#8],
   [0x20#8, 0x2E#8, 0x2E#8, 0x77#8, 0x65#8, 0x72#8, 0x74#8, 0x3D#8],
   [0x30#8, 0x0A#8, 0x20#8, 0x20#8, 0x20#8, 0x20#8, 0x20#8, 0x20#8]]

/-- test/data/ConfigData.cpp:156-302 -/
def testData3 : List (List Byte) :=
  [[0x5B#8, 0x6C#8, 0x6F#8, 0x6B#8, 0x6F#8, 0x6D#8, 0x6F#8, 0x74#8],
   [0x69#8, 0x76#8, 0x65#8, 0x5D#8, 0x0A#8, 0x20#8, 0x20#8, 0x20#8],
   [0x6C#8, 0x6F#8, 0x6B#8, 0x0A#8, 0x20#8, 0x20#8, 0x20#8, 0x20#8],
   [0x20#8, 0x2E#8, 0x75#8, 0x69#8, 0x64#8, 0x3D#8, 0x30#8, 0x78#8],
   [0x63#8, 0x30#8, 0x33#8, 0x32#8, 0x0A#8, 0x20#8, 0x20#8, 0x20#8],
   [0x20#8, 0x2E#8, 0x6E#8, 0x61#8, 0x6D#8, 0x65#8, 0x3D#8, 0x44#8],
   [0x48#8, 0x47#8, 0x20#8, 0x35#8, 0x30#8, 0x30#8, 0x0A#8, 0x20#8],
   [0x20#8, 0x2E#8, 0x61#8, 0x64#8, 0x72#8, 0x65#8, 0x73#8, 0x73#8],
   [0x65#8, 0x3D#8, 0x30#8, 0x78#8, 0x33#8, 0x32#8, 0x0A#8, 0x20#8],
   [0x20#8, 0x2E#8, 0x74#8, 0x79#8, 0x70#8, 0x3D#8, 0x64#8, 0x63#8],
   [0x63#8, 0x0A#8, 0x20#8, 0x20#8, 0x20#8, 0x20#8, 0x20#8, 0x20#8],
   [0x20#8, 0x2E#8, 0x6D#8, 0x66#8, 0x78#8, 0x75#8, 0x69#8, 0x64#8],
   [0x3D#8, 0x30#8, 0x78#8, 0x31#8, 0x0A#8, 0x20#8, 0x20#8, 0x20#8],
   [0x20#8, 0x2E#8, 0x73#8, 0x79#8, 0x6D#8, 0x62#8, 0x6F#8, 0x6C#8],
   [0x3D#8, 0x31#8, 0x0A#8, 0x20#8, 0x20#8, 0x20#8, 0x20#8, 0x20#8],
   [0x20#8, 0x2E#8, 0x73#8, 0x79#8, 0x6D#8, 0x62#8, 0x6F#8, 0x6C#8],
   [0x3D#8, 0x31#8, 0x0A#8, 0x20#8, 0x20#8, 0x20#8, 0x20#8, 0x20#8],
   [0x20#8, 0x2E#8, 0x61#8, 0x76#8, 0x3D#8, 0x36#8, 0x30#8, 0x0A#8],
   [0x20#8, 0x2E#8, 0x62#8, 0x76#8, 0x3D#8, 0x34#8, 0x30#8, 0x0A#8],
   [0x20#8, 0x2E#8, 0x76#8, 0x6F#8, 0x6C#8, 0x75#8, 0x6D#8, 0x65#8],
   [0x3D#8, 0x31#8, 0x30#8, 0x30#8, 0x0A#8, 0x20#8, 0x20#8, 0x20#8],
   [0x20#8, 0x2E#8, 0x76#8, 0x65#8, 0x6C#8, 0x6F#8, 0x63#8, 0x69#8],
   [0x74#8, 0x79#8, 0x3D#8, 0x30#8, 0x0A#8, 0x20#8, 0x20#8, 0x20#8],
   [0x20#8, 0x2E#8, 0x72#8, 0x69#8, 0x63#8, 0x68#8, 0x74#8, 0x75#8],
   [0x6E#8, 0x67#8, 0x3D#8, 0x30#8, 0x0A#8, 0x20#8, 0x20#8, 0x20#8],
   [0x20#8, 0x2E#8, 0x76#8, 0x6D#8, 0x61#8, 0x78#8, 0x3D#8, 0x32#8],
   [0x35#8, 0x35#8, 0x0A#8, 0x20#8, 0x20#8, 0x20#8, 0x20#8, 0x20#8],
   [0x20#8, 0x2E#8, 0x76#8, 0x6D#8, 0x69#8, 0x6E#8, 0x3D#8, 0x31#8],
   [0x33#8, 0x0A#8, 0x20#8, 0x20#8, 0x20#8, 0x20#8, 0x20#8, 0x20#8],
   [0x20#8, 0x2E#8, 0x66#8, 0x6B#8, 0x74#8, 0x0A#8, 0x20#8, 0x20#8],
   [0x20#8, 0x2E#8, 0x2E#8, 0x74#8, 0x79#8, 0x70#8, 0x3D#8, 0x34#8],
   [0x0A#8, 0x20#8, 0x20#8, 0x20#8, 0x20#8, 0x20#8, 0x20#8, 0x20#8],
   [0x20#8, 0x2E#8, 0x2E#8, 0x64#8, 0x61#8, 0x75#8, 0x65#8, 0x72#8],
   [0x3D#8, 0x30#8, 0x0A#8, 0x20#8, 0x20#8, 0x20#8, 0x20#8, 0x20#8],
   [0x20#8, 0x2E#8, 0x2E#8, 0x77#8, 0x65#8, 0x72#8, 0x74#8, 0x3D#8],
   [0x30#8, 0x0A#8, 0x20#8, 0x20#8, 0x20#8, 0x20#8, 0x20#8, 0x20#8],
   [0x20#8, 0x2E#8, 0x66#8, 0x6B#8, 0x74#8, 0x0A#8, 0x20#8, 0x20#8],
   [0x20#8, 0x2E#8, 0x2E#8, 0x74#8, 0x79#8, 0x70#8, 0x3D#8, 0x35#8],
   [0x31#8, 0x0A#8, 0x20#8, 0x20#8, 0x20#8, 0x20#8, 0x20#8, 0x20#8],
   [0x20#8, 0x2E#8, 0x2E#8, 0x64#8, 0x61#8, 0x75#8, 0x65#8, 0x72#8],
   [0x3D#8, 0x30#8, 0x0A#8, 0x20#8, 0x20#8, 0x20#8, 0x20#8, 0x20#8],
   [0x20#8, 0x2E#8, 0x2E#8, 0x77#8, 0x65#8, 0x72#8, 0x74#8, 0x3D#8],
   [0x30#8, 0x0A#8, 0x20#8, 0x20#8, 0x20#8, 0x20#8, 0x20#8, 0x20#8],
   [0x20#8, 0x2E#8, 0x66#8, 0x6B#8, 0x74#8, 0x0A#8, 0x20#8, 0x20#8],
   [0x20#8, 0x2E#8, 0x2E#8, 0x74#8, 0x79#8, 0x70#8, 0x3D#8, 0x35#8],
   [0x32#8, 0x0A#8, 0x20#8, 0x20#8, 0x20#8, 0x20#8, 0x20#8, 0x20#8],
   [0x20#8, 0x2E#8, 0x2E#8, 0x64#8, 0x61#8, 0x75#8, 0x65#8, 0x72#8],
   [0x3D#8, 0x30#8, 0x0A#8, 0x20#8, 0x20#8, 0x20#8, 0x20#8, 0x20#8],
   [0x20#8, 0x2E#8, 0x2E#8, 0x77#8, 0x65#8, 0x72#8, 0x74#8, 0x3D#8],
   [0x30#8, 0x0A#8, 0x20#8, 0x20#8, 0x20#8, 0x20#8, 0x20#8, 0x20#8],
   [0x20#8, 0x2E#8, 0x66#8, 0x6B#8, 0x74#8, 0x0A#8, 0x20#8, 0x20#8],
   [0x20#8, 0x2E#8, 0x2E#8, 0x74#8, 0x79#8, 0x70#8, 0x3D#8, 0x35#8],
   [0x33#8, 0x0A#8, 0x20#8, 0x20#8, 0x20#8, 0x20#8, 0x20#8, 0x20#8],
   [0x20#8, 0x2E#8, 0x2E#8, 0x64#8, 0x61#8, 0x75#8, 0x65#8, 0x72#8],
   [0x3D#8, 0x30#8, 0x0A#8, 0x20#8, 0x20#8, 0x20#8, 0x20#8, 0x20#8],
   [0x20#8, 0x2E#8, 0x2E#8, 0x77#8, 0x65#8, 0x72#8, 0x74#8, 0x3D#8],
   [0x30#8, 0x0A#8, 0x20#8, 0x20#8, 0x20#8, 0x20#8, 0x20#8, 0x20#8],
   [0x20#8, 0x2E#8, 0x66#8, 0x6B#8, 0x74#8, 0x0A#8, 0x20#8, 0x20#8],
   [0x20#8, 0x2E#8, 0x2E#8, 0x74#8, 0x79#8, 0x70#8, 0x3D#8, 0x38#8],
   [0x0A#8, 0x20#8, 0x20#8, 0x20#8, 0x20#8, 0x20#8, 0x20#8, 0x20#8],
   [0x20#8, 0x2E#8, 0x2E#8, 0x64#8, 0x61#8, 0x75#8, 0x65#8, 0x72#8],
   [0x3D#8, 0x30#8, 0x0A#8, 0x20#8, 0x20#8, 0x20#8, 0x20#8, 0x20#8],
   [0x20#8, 0x2E#8, 0x2E#8, 0x77#8, 0x65#8, 0x72#8, 0x74#8, 0x3D#8],
   [0x30#8, 0x0A#8, 0x20#8, 0x20#8, 0x20#8, 0x20#8, 0x20#8, 0x20#8],
   [0x20#8, 0x2E#8, 0x66#8, 0x6B#8, 0x74#8, 0x0A#8, 0x20#8, 0x20#8],
   [0x20#8, 0x2E#8, 0x2E#8, 0x74#8, 0x79#8, 0x70#8, 0x3D#8, 0x30#8],
   [0x0A#8, 0x20#8, 0x20#8, 0x20#8, 0x20#8, 0x20#8, 0x20#8, 0x20#8],
   [0x20#8, 0x2E#8, 0x2E#8, 0x64#8, 0x61#8, 0x75#8, 0x65#8, 0x72#8],
   [0x3D#8, 0x30#8, 0x0A#8, 0x20#8, 0x20#8, 0x20#8, 0x20#8, 0x20#8],
   [0x20#8, 0x2E#8, 0x2E#8, 0x77#8, 0x65#8, 0x72#8, 0x74#8, 0x3D#8],
   [0x30#8, 0x0A#8, 0x20#8, 0x20#8, 0x20#8, 0x20#8, 0x20#8, 0x20#8],
   [0x20#8, 0x2E#8, 0x66#8, 0x6B#8, 0x74#8, 0x0A#8, 0x20#8, 0x20#8],
   [0x20#8, 0x2E#8, 0x2E#8, 0x74#8, 0x79#8, 0x70#8, 0x3D#8, 0x30#8],
   [0x0A#8, 0x20#8, 0x20#8, 0x20#8, 0x20#8, 0x20#8, 0x20#8, 0x20#8],
   [0x20#8, 0x2E#8, 0x2E#8, 0x64#8, 0x61#8, 0x75#8, 0x65#8, 0x72#8],
   [0x3D#8, 0x30#8, 0x0A#8, 0x20#8, 0x20#8, 0x20#8, 0x20#8, 0x20#8],
   [0x20#8, 0x2E#8, 0x2E#8, 0x77#8, 0x65#8, 0x72#8, 0x74#8, 0x3D#8],
   [0x30#8, 0x0A#8, 0x20#8, 0x20#8, 0x20#8, 0x20#8, 0x20#8, 0x20#8],
   [0x20#8, 0x2E#8, 0x66#8, 0x6B#8, 0x74#8, 0x0A#8, 0x20#8, 0x20#8],
   [0x20#8, 0x2E#8, 0x2E#8, 0x74#8, 0x79#8, 0x70#8, 0x3D#8, 0x30#8],
   [0x0A#8, 0x20#8, 0x20#8, 0x20#8, 0x20#8, 0x20#8, 0x20#8, 0x20#8],
   [0x20#8, 0x2E#8, 0x2E#8, 0x64#8, 0x61#8, 0x75#8, 0x65#8, 0x72#8],
   [0x3D#8, 0x30#8, 0x0A#8, 0x20#8, 0x20#8, 0x20#8, 0x20#8, 0x20#8],
   [0x20#8, 0x2E#8, 0x2E#8, 0x77#8, 0x65#8, 0x72#8, 0x74#8, 0x3D#8],
   [0x30#8, 0x0A#8, 0x20#8, 0x20#8, 0x20#8, 0x20#8, 0x20#8, 0x20#8],
   [0x20#8, 0x2E#8, 0x66#8, 0x6B#8, 0x74#8, 0x0A#8, 0x20#8, 0x20#8],
   [0x20#8, 0x2E#8, 0x2E#8, 0x74#8, 0x79#8, 0x70#8, 0x3D#8, 0x30#8],
   [0x0A#8, 0x20#8, 0x20#8, 0x20#8, 0x20#8, 0x20#8, 0x20#8, 0x20#8],
   [0x20#8, 0x2E#8, 0x2E#8, 0x64#8, 0x61#8, 0x75#8, 0x65#8, 0x72#8],
   [0x3D#8, 0x30#8, 0x0A#8, 0x20#8, 0x20#8, 0x20#8, 0x20#8, 0x20#8],
   [0x20#8, 0x2E#8, 0x2E#8, 0x77#8, 0x65#8, 0x72#8, 0x74#8, 0x3D#8],
   [0x30#8, 0x0A#8, 0x20#8, 0x20#8, 0x20#8, 0x20#8, 0x20#8, 0x20#8],
   [0x20#8, 0x2E#8, 0x66#8, 0x6B#8, 0x74#8, 0x0A#8, 0x20#8, 0x20#8],
   [0x20#8, 0x2E#8, 0x2E#8, 0x74#8, 0x79#8, 0x70#8, 0x3D#8, 0x30#8],
   [0x0A#8, 0x20#8, 0x20#8, 0x20#8, 0x20#8, 0x20#8, 0x20#8, 0x20#8],
   [0x20#8, 0x2E#8, 0x2E#8, 0x64#8, 0x61#8, 0x75#8, 0x65#8, 0x72#8],
   [0x3D#8, 0x30#8, 0x0A#8, 0x20#8, 0x20#8, 0x20#8, 0x20#8, 0x20#8],
   [0x20#8, 0x2E#8, 0x2E#8, 0x77#8, 0x65#8, 0x72#8, 0x74#8, 0x3D#8],
   [0x30#8, 0x0A#8, 0x20#8, 0x20#8, 0x20#8, 0x20#8, 0x20#8, 0x20#8],
   [0x20#8, 0x2E#8, 0x66#8, 0x6B#8, 0x74#8, 0x0A#8, 0x20#8, 0x20#8],
   [0x20#8, 0x2E#8, 0x2E#8, 0x74#8, 0x79#8, 0x70#8, 0x3D#8, 0x30#8],
   [0x0A#8, 0x20#8, 0x20#8, 0x20#8, 0x20#8, 0x20#8, 0x20#8, 0x20#8],
   [0x20#8, 0x2E#8, 0x2E#8, 0x64#8, 0x61#8, 0x75#8, 0x65#8, 0x72#8],
   [0x3D#8, 0x30#8, 0x0A#8, 0x20#8, 0x20#8, 0x20#8, 0x20#8, 0x20#8],
   [0x20#8, 0x2E#8, 0x2E#8, 0x77#8, 0x65#8, 0x72#8, 0x74#8, 0x3D#8],
   [0x30#8, 0x0A#8, 0x20#8, 0x20#8, 0x20#8, 0x20#8, 0x20#8, 0x20#8],
   [0x20#8, 0x2E#8, 0x66#8, 0x6B#8, 0x74#8, 0x0A#8, 0x20#8, 0x20#8],
   [0x20#8, 0x2E#8, 0x2E#8, 0x74#8, 0x79#8, 0x70#8, 0x3D#8, 0x30#8],
   [0x0A#8, 0x20#8, 0x20#8, 0x20#8, 0x20#8, 0x20#8, 0x20#8, 0x20#8],
   [0x20#8, 0x2E#8, 0x2E#8, 0x64#8, 0x61#8, 0x75#8, 0x65#8, 0x72#8],
   [0x3D#8, 0x30#8, 0x0A#8, 0x20#8, 0x20#8, 0x20#8, 0x20#8, 0x20#8],
   [0x20#8, 0x2E#8, 0x2E#8, 0x77#8, 0x65#8, 0x72#8, 0x74#8, 0x3D#8],
   [0x30#8, 0x0A#8, 0x20#8, 0x20#8, 0x20#8, 0x20#8, 0x20#8, 0x20#8],
   [0x20#8, 0x2E#8, 0x66#8, 0x6B#8, 0x74#8, 0x0A#8, 0x20#8, 0x20#8],
   [0x20#8, 0x2E#8, 0x2E#8, 0x74#8, 0x79#8, 0x70#8, 0x3D#8, 0x30#8],
   [0x0A#8, 0x20#8, 0x20#8, 0x20#8, 0x20#8, 0x20#8, 0x20#8, 0x20#8],
   [0x20#8, 0x2E#8, 0x2E#8, 0x64#8, 0x61#8, 0x75#8, 0x65#8, 0x72#8],
   [0x3D#8, 0x30#8, 0x0A#8, 0x20#8, 0x20#8, 0x20#8, 0x20#8, 0x20#8],
   [0x20#8, 0x2E#8, 0x2E#8, 0x77#8, 0x65#8, 0x72#8, 0x74#8, 0x3D#8],
   [0x30#8, 0x0A#8, 0x20#8, 0x20#8, 0x20#8, 0x20#8, 0x20#8, 0x20#8],
   [0x20#8, 0x2E#8, 0x66#8, 0x6B#8, 0x74#8, 0x0A#8, 0x20#8, 0x20#8],
   [0x20#8, 0x2E#8, 0x2E#8, 0x74#8, 0x79#8, 0x70#8, 0x3D#8, 0x30#8],
   [0x0A#8, 0x20#8, 0x20#8, 0x20#8, 0x20#8, 0x20#8, 0x20#8, 0x20#8],
   [0x20#8, 0x2E#8, 0x2E#8, 0x64#8, 0x61#8, 0x75#8, 0x65#8, 0x72#8],
   [0x3D#8, 0x30#8, 0x0A#8, 0x20#8, 0x20#8, 0x20#8, 0x20#8, 0x20#8],
   [0x20#8, 0x2E#8, 0x2E#8, 0x77#8, 0x65#8, 0x72#8, 0x74#8, 0x3D#8],
   [0x30#8, 0x0A#8, 0x20#8, 0x20#8, 0x20#8, 0x20#8, 0x20#8, 0x20#8],
   [0x20#8, 0x2E#8, 0x66#8, 0x6B#8, 0x74#8, 0x0A#8, 0x20#8, 0x20#8],
   [0x20#8, 0x2E#8, 0x2E#8, 0x74#8, 0x79#8, 0x70#8, 0x3D#8, 0x30#8],
   [0x0A#8, 0x20#8, 0x20#8, 0x20#8, 0x20#8, 0x20#8, 0x20#8, 0x20#8],
   [0x20#8, 0x2E#8, 0x2E#8, 0x64#8, 0x61#8, 0x75#8, 0x65#8, 0x72#8],
   [0x3D#8, 0x30#8, 0x0A#8, 0x20#8, 0x20#8, 0x20#8, 0x20#8, 0x20#8],
   [0x20#8, 0x2E#8, 0x2E#8, 0x77#8, 0x65#8, 0x72#8, 0x74#8, 0x3D#8],
   [0x30#8, 0x0A#8, 0x20#8, 0x20#8, 0x20#8, 0x20#8, 0x20#8, 0x20#8],
   [0x20#8, 0x2E#8, 0x66#8, 0x6B#8, 0x74#8, 0x0A#8, 0x20#8, 0x20#8],
   [0x20#8, 0x2E#8, 0x2E#8, 0x74#8, 0x79#8, 0x70#8, 0x3D#8, 0x30#8],
   [0x0A#8, 0x20#8, 0x20#8, 0x20#8, 0x20#8, 0x20#8, 0x20#8, 0x20#8],
   [0x20#8, 0x2E#8, 0x2E#8, 0x64#8, 0x61#8, 0x75#8, 0x65#8, 0x72#8],
   [0x3D#8, 0x30#8, 0x0A#8, 0x20#8, 0x20#8, 0x20#8, 0x20#8, 0x20#8],
   [0x20#8, 0x2E#8, 0x2E#8, 0x77#8, 0x65#8, 0x72#8, 0x74#8, 0x3D#8],
   [0x30#8, 0x0A#8, 0x20#8, 0x20#8, 0x20#8, 0x20#8, 0x20#8, 0x20#8]]

end RR32.Tests
