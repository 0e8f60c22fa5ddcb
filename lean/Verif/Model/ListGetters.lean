import Verif.Model.Consumers

/-! # What an engine list says of itself, lib/RR32CanEngineDb/LocoListConsumer.h -/

set_option autoImplicit false

namespace RR32

namespace LocoListConsumer

/-- Reading a field that the constructor does not initialise. -/
def readField {α : Type} : Option α → Res α
  | none => .error .uninitRead
  | some v => .ok v

/-- `isStreamComplete`, lib/RR32CanEngineDb/LocoListConsumer.h:48. -/
def isStreamComplete (c : LocoListConsumer) : Res Bool := readField c.streamComplete

/-- `getStreamOffset`, lib/RR32CanEngineDb/LocoListConsumer.h:28. -/
def getStreamOffset (c : LocoListConsumer) : Res Byte := readField c.streamOffset

/-- `getNumEnginesKnownByMaster`, lib/RR32CanEngineDb/LocoListConsumer.h:54. -/
def getNumEnginesKnownByMaster (c : LocoListConsumer) : Res Byte := readField c.numEnginesKnownByMaster

/-- `getEngineInfos`, lib/RR32CanEngineDb/LocoListConsumer.h:52. -/
def getEngineInfos (c : LocoListConsumer) : List ShortInfo := c.engineInfo

end LocoListConsumer

end RR32
