import Verif.Model.World
import Verif.Spec.Receive

/-!
# Traffic that is not about configuration data

Frames of all other commands that arrive, and everything a station can send that is no request for configuration data.
-/

set_option autoImplicit false

namespace RR32.Spec

/-- A received frame of another command than `Config Data Stream` (0x21) with at most 8 bytes of payload, or a call that makes the station
send a command or ask for the state of an engine. -/
def isControl : Op → Bool
  | .handle f => commandOf f ≠ 0x21 ∧ f.data.dlc.toNat ≤ 8
  | .requestDirection _ | .sendDirection .. | .requestVelocity _ | .sendVelocity .. | .requestFunction .. | .requestAllFunctions _
  | .sendFunction .. | .sendEmergencyStop _ | .sendStop | .sendGo | .sendAccessory .. | .sendPacket _ => true
  | _ => false

/-- A received frame of a configuration data stream. -/
def isStreamFrame : Op → Bool
  | .handle f => commandOf f = 0x21
  | _ => false

/-- An entry of the log about a station's callbacks. -/
def isCall : LogEntry → Bool
  | .call _ => true
  | _ => false

end RR32.Spec
