import Verif.Model.CLib

/-! # Constants (lib/RR32Can/Constants.h, lib/RR32Can/Constants.cpp, lib/RR32Can/types/BaseTypes.h) -/

set_option autoImplicit false

namespace RR32

/-- `RailProtocol`, lib/RR32Can/types/BaseTypes.h:13. -/
inductive RailProtocol where
  | MM1 | MM2 | MFX | SX1 | SX2 | DCC | UNKNOWN
  deriving DecidableEq, Repr

/-! `Command`, lib/RR32Can/Constants.h:17-72. The enum has the fixed underlying type `uint8_t`, so every byte is a value of it. -/

/-- lib/RR32Can/Constants.h:17 -/
def kSystemCommand : Byte := 0x00#8
/-- lib/RR32Can/Constants.h:21 -/
def kLocoSpeed : Byte := 0x04#8
/-- lib/RR32Can/Constants.h:22 -/
def kLocoDirection : Byte := 0x05#8
/-- lib/RR32Can/Constants.h:23 -/
def kLocoFunction : Byte := 0x06#8
/-- lib/RR32Can/Constants.h:27 -/
def kAccessorySwitch : Byte := 0x0B#8
/-- lib/RR32Can/Constants.h:31 -/
def kS88Event : Byte := 0x11#8
/-- lib/RR32Can/Constants.h:34 -/
def kPing : Byte := 0x18#8
/-- lib/RR32Can/Constants.h:41 -/
def kRequestConfigData : Byte := 0x20#8
/-- lib/RR32Can/Constants.h:42 -/
def kConfigDataStream : Byte := 0x21#8
/-- lib/RR32Can/Constants.h:45 -/
def kDebugText : Byte := 0x42#8

/-! System subcommands, lib/RR32Can/Constants.h:76-108; fixed underlying type `uint8_t`. -/

/-- lib/RR32Can/Constants.h:76 -/
def kSubcommandSystemStop : Byte := 0x00#8
/-- lib/RR32Can/Constants.h:77 -/
def kSubcommandSystemGo : Byte := 0x01#8
/-- lib/RR32Can/Constants.h:78 -/
def kSubcommandSystemHalt : Byte := 0x02#8
/-- lib/RR32Can/Constants.h:79 -/
def kSubcommandLocoEmergencyStop : Byte := 0x03#8
/-- lib/RR32Can/Constants.h:86 -/
def kSubcommandSystemOverload : Byte := 0x0A#8
/-- lib/RR32Can/Constants.h:87 -/
def kSubcommandSystemStatus : Byte := 0x0B#8
/-- lib/RR32Can/Constants.h:88 -/
def kSubcommandSystemIdentifier : Byte := 0x0C#8
/-- lib/RR32Can/Constants.h:90 -/
def kSubcommandSystemReset : Byte := 0x80#8

/-- lib/RR32Can/Constants.h:111 -/
def CanDataMaxLength : Nat := 8
/-- lib/RR32Can/Constants.h:114 -/
def kEngineNameLength : Nat := 32
/-- lib/RR32Can/Constants.h:123 -/
def kNumEngineNamesDownload : Nat := 2
/-- lib/RR32Can/Constants.h:130 -/
def kEngineBrowserEntries : Nat := kNumEngineNamesDownload

/-! Address ranges, lib/RR32Can/Constants.h:148-176. -/

/-- lib/RR32Can/Constants.h:148 -/
def kMMEngineFunctionAddrStart : U32 := 0x0000#32
/-- lib/RR32Can/Constants.h:149 -/
def kMMEngineFunctionAddrStop : U32 := 0x03FF#32
/-- lib/RR32Can/Constants.h:151 -/
def kSX1AddrStart : U32 := 0x0800#32
/-- lib/RR32Can/Constants.h:152 -/
def kSX1AddrStop : U32 := 0x0BFF#32
/-- lib/RR32Can/Constants.h:157 -/
def kMMEngineAddrStart : U32 := 0x2000#32
/-- lib/RR32Can/Constants.h:158 -/
def kMMEngineAddrStop : U32 := 0x23FF#32
/-- lib/RR32Can/Constants.h:160 -/
def kSX1AccessoryAddrStart : U32 := 0x2800#32
/-- lib/RR32Can/Constants.h:161 -/
def kSX1AccessoryAddrStop : U32 := 0x2BFF#32
/-- lib/RR32Can/Constants.h:163 -/
def kMMAccessoryAddrStart : U32 := 0x3000#32
/-- lib/RR32Can/Constants.h:164 -/
def kMMAccessoryAddrStop : U32 := 0x33FF#32
/-- lib/RR32Can/Constants.h:166 -/
def kDCCAccessoryAddrStart : U32 := 0x3800#32
/-- lib/RR32Can/Constants.h:167 -/
def kDCCccessoryAddrStop : U32 := 0x3FFF#32
/-- lib/RR32Can/Constants.h:169 -/
def kMFXAddrStart : U32 := 0x4000#32
/-- lib/RR32Can/Constants.h:170 -/
def kMFXAddrStop : U32 := 0x7FFF#32
/-- lib/RR32Can/Constants.h:172 -/
def kSX2AddrStart : U32 := 0x8000#32
/-- lib/RR32Can/Constants.h:173 -/
def kSX2AddrStop : U32 := 0xBFFF#32
/-- lib/RR32Can/Constants.h:175 -/
def kDCCAddrStart : U32 := 0xC000#32
/-- lib/RR32Can/Constants.h:176 -/
def kDCCAddrStop : U32 := 0xFFFF#32

/-- lib/RR32Can/Constants.h:179 -/
def kMaxEngineVelocity : U16 := 1000#16

/-- `Filenames::kEngine`, lib/RR32Can/Constants.cpp:15. -/
def kEngine : List Byte := lit "lokinfo"
/-- `Filenames::kEngineResult`, lib/RR32Can/Constants.cpp:16. -/
def kEngineResult : List Byte := lit "lokomotive"
/-- `Filenames::kEngineNames`, lib/RR32Can/Constants.cpp:17. -/
def kEngineNames : List Byte := lit "loknamen"

end RR32
