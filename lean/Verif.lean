import Verif.Model.Broadcast
import Verif.Model.BufferManager
import Verif.Model.Bus
import Verif.Model.CLib
import Verif.Model.Console
import Verif.Model.Constants
import Verif.Model.Consumers
import Verif.Model.Crc
import Verif.Model.Departing
import Verif.Model.Editing
import Verif.Model.Exchange
import Verif.Model.Lifetime
import Verif.Model.ListGetters
import Verif.Model.Locomotive
import Verif.Model.Messages
import Verif.Model.Nested
import Verif.Model.Output
import Verif.Model.Overrun
import Verif.Model.Overwritten
import Verif.Model.Reentrant
import Verif.Model.Shared
import Verif.Model.Speaking
import Verif.Model.Station
import Verif.Model.Storage
import Verif.Model.StreamParser
import Verif.Model.Tenancy
import Verif.Model.TextParser
import Verif.Model.Types
import Verif.Model.Util
import Verif.Model.World
import Verif.Spec.Buffer
import Verif.Spec.Bus
import Verif.Spec.Console
import Verif.Spec.Departing
import Verif.Spec.Editing
import Verif.Spec.Engine
import Verif.Spec.EngineMemory
import Verif.Spec.Files
import Verif.Spec.Lifetime
import Verif.Spec.Loss
import Verif.Spec.Master
import Verif.Spec.Memory
import Verif.Spec.Named
import Verif.Spec.Numbers
import Verif.Spec.Output
import Verif.Spec.Poly
import Verif.Spec.Printed
import Verif.Spec.Protocol
import Verif.Spec.Reason
import Verif.Spec.Receive
import Verif.Spec.Shared
import Verif.Spec.Storage
import Verif.Spec.Stream
import Verif.Spec.Strings
import Verif.Spec.Tally
import Verif.Spec.Tenancy
import Verif.Spec.Text
import Verif.Spec.Trace
import Verif.Spec.Traffic
import Verif.Spec.Valid
import Verif.Spec.Wire
import Verif.Proofs.Bits
import Verif.Proofs.Buffer
import Verif.Proofs.Bus
import Verif.Proofs.Busy
import Verif.Proofs.CLib
import Verif.Proofs.Compose
import Verif.Proofs.Console
import Verif.Proofs.Consumers
import Verif.Proofs.Decimal
import Verif.Proofs.Departing
import Verif.Proofs.DepartingEnd
import Verif.Proofs.DepartingSame
import Verif.Proofs.Document
import Verif.Proofs.Editing
import Verif.Proofs.Histories
import Verif.Proofs.Lifetime
import Verif.Proofs.Master
import Verif.Proofs.Mirror
import Verif.Proofs.Nested
import Verif.Proofs.NestedChain
import Verif.Proofs.NestedCut
import Verif.Proofs.NestedFrame
import Verif.Proofs.NestedGood
import Verif.Proofs.NestedRun
import Verif.Proofs.NestedSafe
import Verif.Proofs.NestedStable
import Verif.Proofs.NestedStep
import Verif.Proofs.Numbers
import Verif.Proofs.Output
import Verif.Proofs.Poly
import Verif.Proofs.Reader
import Verif.Proofs.Receive
import Verif.Proofs.Reentrant
import Verif.Proofs.Request
import Verif.Proofs.Send
import Verif.Proofs.Settled
import Verif.Proofs.Shared
import Verif.Proofs.Speaking
import Verif.Proofs.SpeakingFlat
import Verif.Proofs.SpeakingGrows
import Verif.Proofs.Stream
import Verif.Proofs.Strings
import Verif.Proofs.Tally
import Verif.Proofs.TextParser
import Verif.Proofs.Traffic
import Verif.Proofs.World
import Verif.Props.Abort
import Verif.Props.AbortNested
import Verif.Props.Addresses
import Verif.Props.Broadcast
import Verif.Props.Browse
import Verif.Props.Buffer
import Verif.Props.Builders
import Verif.Props.Bus
import Verif.Props.Busy
import Verif.Props.BusyDownload
import Verif.Props.Calm
import Verif.Props.Console
import Verif.Props.Crc
import Verif.Props.Departing
import Verif.Props.Editing
import Verif.Props.EndToEnd
import Verif.Props.Ends
import Verif.Props.Engine
import Verif.Props.EngineList
import Verif.Props.EngineLog
import Verif.Props.EngineMemory
import Verif.Props.Exchange
import Verif.Props.History
import Verif.Props.Ideal
import Verif.Props.Identifier
import Verif.Props.Lifetime
import Verif.Props.LifetimeOver
import Verif.Props.Lines
import Verif.Props.Locomotive
import Verif.Props.Loopback
import Verif.Props.Loss
import Verif.Props.Memory
import Verif.Props.Named
import Verif.Props.Nested
import Verif.Props.NestedEntry
import Verif.Props.NestedOrder
import Verif.Props.NestedSeen
import Verif.Props.NestedSend
import Verif.Props.NestedTransmissions
import Verif.Props.Output
import Verif.Props.Overrun
import Verif.Props.Overwritten
import Verif.Props.Packets
import Verif.Props.Printed
import Verif.Props.Reason
import Verif.Props.Receive
import Verif.Props.Reentrant
import Verif.Props.Send
import Verif.Props.Sending
import Verif.Props.Served
import Verif.Props.Settled
import Verif.Props.Setup
import Verif.Props.Shared
import Verif.Props.SharedViews
import Verif.Props.Speaking
import Verif.Props.SpeakingFlat
import Verif.Props.Storage
import Verif.Props.Stream
import Verif.Props.Sturdy
import Verif.Props.Tally
import Verif.Props.Tenancy
import Verif.Props.Text
import Verif.Props.Trace
import Verif.Props.Traffic
import Verif.Props.Turns
import Verif.Props.TurnsMixed
import Verif.Props.TurnsPossible
import Verif.Props.Uninit
import Verif.Props.Valid
import Verif.Tests.Buffers
import Verif.Tests.ConfigData
import Verif.Tests.Stations
import Verif.Tests.Units
