import Verif.Model.StreamParser

/-! # Why received configuration data is not used, in words -/

set_option autoImplicit false

namespace RR32.Spec

/-- What the log says about a packet with `len` bytes for a parser in this state; nothing if it is used. -/
def reason (state : StreamState) (len : Nat) : String :=
  match state with
  | .IDLE => "Received uninteresting config data (IDLE).\n"
  | .STREAM_DONE => "Received uninteresting config data (STREAM_DONE).\n"
  | .WAITING_FIRST_PACKET =>
      if len < 6 then "Undersized first packet! Aborting parse.\n"
      else if 7 < len then "Oversized first packet! Aborting parse.\n"
      else ""
  | .WAITING_DATA_PACKET => if len = 8 then "" else "Undersized data packet! Aborting parse.\n"

/-- A first packet begins a stream: its length is that in the packet, and an empty stream is complete. -/
def Begun (p q : StreamParser) (d : Data) : Prop :=
  q.remaining.toNat = d.b0.toNat * 2 ^ 24 + d.b1.toNat * 2 ^ 16 + d.b2.toNat * 2 ^ 8 + d.b3.toNat ∧ q.text = p.text ∧
  q.state = if q.remaining = 0#32 then .STREAM_DONE else .WAITING_DATA_PACKET

/-- A packet continues a stream: 8 bytes fewer remain, and while some remain the next packet is waited for. -/
def Continued (p q : StreamParser) : Prop :=
  q.remaining = p.remaining - 8#32 ∧ (q.remaining ≠ 0#32 → q.state = .WAITING_DATA_PACKET) ∧
  (q.remaining = 0#32 → q.state = .STREAM_DONE ∨ q.state = .IDLE)

/-- A packet is not used: the parser stays as it is, or gives up and tells its consumer. -/
def Dropped (p q : StreamParser) (calls : List ConsumerCall) : Prop :=
  (q = p ∧ calls = []) ∨
  (q.state = .IDLE ∧ q.consumer = none ∧ calls = p.consumer.toList.map (fun c => { consumer := c, action := .aborted }))

end RR32.Spec
