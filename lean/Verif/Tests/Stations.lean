import Verif.Model.World
import Verif.Model.Console
import Verif.Proofs.Decimal
import Verif.Tests.Buffers

/-!
# The repository's integration tests, run on the model: Station, engine and engine list downloads

The mocks are objects 0 (tx), 1 (accessory), 2 (system), 3 (engine). A strict mock without an expectation fails if it is called; here
the list of all calls is compared.
-/

set_option autoImplicit false

namespace RR32.Tests

/-! ## test/integration/StationTest.cpp -/

/-- `StationTestFixture::SetUp`, test/integration/StationTest.cpp:16-26 -/
def station : Station :=
  (Station.begin_ {} 0 { tx := some 0, accessory := some 1, system := some 2, engine := some 3 }).1

/-- A frame as the tests build it. -/
def frame (command : Byte) (response : Bool) (data : Data) : CanFrame :=
  { id := ((⟨0⟩ : Identifier).setCommand command).setResponse response, data := data }

/-- The calls `HandlePacket` makes, if no configuration stream is in progress. -/
def handled (f : CanFrame) : Option (List Call) := (station.HandlePacket false f).toOption

/-- test/integration/StationTest.cpp:51-62 -/
theorem Station_RecvStopReq :
    handled (frame kSystemCommand false { dlc := 5, b4 := kSubcommandSystemStop }) = some [.setSystemState 2 false false] := by decide +kernel

/-- test/integration/StationTest.cpp:64-77 -/
theorem Station_RecvGoReq :
    let f := frame kSystemCommand false { dlc := 5, b4 := kSubcommandSystemGo }
    f = Util.System_Go false ∧ handled f = some [.setSystemState 2 true false] := by decide +kernel

/-- test/integration/StationTest.cpp:79-92 -/
theorem Station_RecvStopResp :
    let f := frame kSystemCommand true { dlc := 5, b4 := kSubcommandSystemStop }
    f = Util.System_Stop true ∧ handled f = some [.setSystemState 2 false true] := by decide +kernel

/-- test/integration/StationTest.cpp:94-112 -/
theorem Station_RecvEngineEmergencyStop :
    let f := frame kSystemCommand false { dlc := 5, b2 := 0x48, b3 := 0x03, b4 := kSubcommandLocoEmergencyStop }
    f = Util.System_LocoEmStop false (Util.MFX_Loco 0x803) ∧ handled f = some [.setLocoVelocity 3 0x4803 0] := by decide +kernel

/-- test/integration/StationTest.cpp:114-127 -/
theorem Station_RecvGoResp :
    let f := frame kSystemCommand true { dlc := 5, b4 := kSubcommandSystemGo }
    f = Util.System_Go true ∧ handled f = some [.setSystemState 2 true true] := by decide +kernel

/-- Exactly one frame is sent, the expected one. A mock compares frames with `operator==`. -/
def sent (r : Res (List Call)) (f : CanFrame) : Bool :=
  passes r (fun l => match l with
    | [.tx 0 g] => passes (g.eq f) id
    | _ => false)

/-- test/integration/StationTest.cpp:129-139 -/
theorem Station_SendGo :
    sent station.SendSystemGo (frame kSystemCommand false { dlc := 5, b4 := kSubcommandSystemGo }) = true := by decide +kernel

/-- test/integration/StationTest.cpp:141-151 -/
theorem Station_SendStop :
    sent station.SendSystemStop (frame kSystemCommand false { dlc := 5, b4 := kSubcommandSystemStop }) = true := by decide +kernel

/-- test/integration/StationTest.cpp:153-172 -/
theorem Station_SendAccessory_MFX :
    let f := frame kAccessorySwitch false { dlc := 6, b2 := 0x30, b3 := 0x29, b4 := 1, b5 := 1 }
    f = Util.Turnout false (Util.MM2_Turnout 41) .GREEN true ∧
    sent (station.SendAccessoryPacket (.ofHuman ⟨42⟩) .MM2 .GREEN 1) f = true := by decide +kernel

/-- test/integration/StationTest.cpp:174-193 -/
theorem Station_SendAccessory_DCC :
    let f := frame kAccessorySwitch false { dlc := 6, b2 := 0x38, b3 := 0x29, b4 := 1, b5 := 1 }
    f = Util.Turnout false (Util.DCC_Turnout 41) .GREEN true ∧
    sent (station.SendAccessoryPacket (.ofHuman ⟨42⟩) .DCC .GREEN 1) f = true := by decide +kernel

/-- test/integration/StationTest.cpp:195-214 and 216-236, `response` false and true -/
theorem Station_ReceiveAccessory :
    ∀ response ∈ [false, true],
      passes (station.HandlePacket false (frame kAccessorySwitch response { dlc := 6, b2 := 0x30, b3 := 0x29, b4 := 1, b5 := 1 }))
        (fun l => match l with
          | [.onAccessoryPacket 1 packet r] =>
              TurnoutPacket.eq packet (Util.Turnout response (Util.MM2_Turnout 41) .GREEN true).data && r == response
          | _ => false) = true := by decide +kernel

/-- `Config_Data_Stream` on each chunk -/
def dataFrames (chunks : List (List Byte)) : Res (List CanFrame) := chunks.mapM Util.Config_Data_Stream_Data

/-- test/integration/StationTest.cpp:238-251: without a parser, all data packets are ignored. -/
theorem Station_ReceiveConfigData_NoParser :
    passes (dataFrames testData1) (fun l => l.length == 9 && l.all fun f => handled f == some []) = true ∧
    passes (dataFrames testData2) (fun l => l.length == 141 && l.all fun f => handled f == some []) = true := by decide +kernel

theorem listText_zero : Station.engineListText 0 = str "0 2" := by
  unfold Station.engineListText
  rw [decText_eq, decText_eq]
  decide +kernel

/-- The request for the engine list, test/integration/StationTest.cpp:31-43, sends the two frames expected there. -/
theorem Station_RequestEngineList (s : Station) (p : Nat) (hs : s.senderHash = 0) (ht : s.callbacks.tx = some 0) (hc : s.callbacks.configData = none) :
    ∃ f1 f2, Util.Request_Config_Data (lit "loknamen") = .ok f1 ∧ Util.Request_Config_Data (lit "0 2") = .ok f2 ∧
      s.RequestEngineList 0 (some p) =
        .ok ({ s with callbacks := { s.callbacks with configData := some p } }, [.cfgStart p, .tx 0 f1, .tx 0 f2]) := by
  obtain ⟨h, tx, sy, en, ac, cd⟩ := s
  simp only at hs ht hc
  subst hs ht hc
  unfold Station.RequestEngineList
  rw [listText_zero]
  exact ⟨_, _, rfl, rfl, rfl⟩

/-- test/integration/StationTest.cpp:253-264: with a parser that is processing, each data packet is passed on, once and unchanged.
The next test there (lines 266-277) reads `testData1` beyond its end; it is not repeated. -/
theorem Station_ReceiveConfigData_WithParser_data1 :
    passes (dataFrames testData1) (fun l => l.length == 9 && l.all fun f =>
      (({ station with callbacks := { station.callbacks with configData := some 0 } } : Station).HandlePacket true f).toOption ==
        some [.cfgAdd 0 f.data]) = true := by decide +kernel

/-- test/integration/StationTest.cpp:279-300 -/
theorem Station_ReceiveDebugText :
    let data : Data := ⟨8, 0x45, 0x6E, 0x64, 0x65, 0x20, 0x53, 0x65, 0x6E, 0⟩
    (station.packetText false { id := ⟨0x00846B5B⟩, data := data }).toOption = some (str "Debug Text: 'Ende Sen'\n") := by decide +kernel

/-! ## test/integration/EngineLibraryTest.cpp -/

/-- `LocolistTestFixture`, test/integration/EngineLibraryTest.cpp:17-27,83-92, on a PC: parser 0, list consumer 0, engine consumer 1,
end callback 7; engine 0 is `actualEngine`, engine 1 the one requested. -/
def fixture : Res World := do
  let t ← TextParser.construct (List.replicate 31 0xAA#8) (List.replicate 11 0xAA#8) (List.replicate 11 0xAA#8) (List.replicate 26 0xAA#8)
  World.run
    { pf := ⟨64⟩, station := {}, parsers := fun _ => StreamParser.construct t,
      consumers := fun n => if n = 0 then .list LocoListConsumer.construct else .loco LocoConsumer.construct,
      engines := fun _ => Locomotive.construct (List.replicate 9 0xAA#8), log := [] }
    [.setEndCallback 1 (some 7), .setEndCallback 0 (some 7), .begin_ 0 { tx := some 0 }]

/-- The frames the application is asked to send, and the end callbacks called with the consumer they are given. -/
def seen (w : World) : List CanFrame × List (Nat × Nat × Bool) :=
  (w.log.filterMap (fun e => match e with | .call (.tx 0 f) => some f | _ => none),
   w.log.filterMap (fun e => match e with | .streamEnd cb c ok _ => some (cb, c, ok) | _ => none))

/-- Everything the master sends for a download. -/
def download (chunks : List (List Byte)) (crc : U16) : Res (List Op) := do
  let l ← dataFrames chunks
  .ok ((Util.Config_Data_Stream_First (BitVec.ofNat 32 (chunks.length * CanDataMaxLength)) crc :: l).map .handle)

/-- `RequestEngineList` with the text of its second frame given, which lets the kernel compute it. -/
def listRequest (text : List Byte) (s : Station) (p : Option Nat) : Res (Station × List Call) := do
  let (s, calls) := s.AbortCurrentConfigRequest
  let s := { s with callbacks := { s.callbacks with configData := p } }
  let frame1 : CanFrame := { id := Identifier.mk' kRequestConfigData s.senderHash, data := { dlc := 8#8 } }
  let mem ← strncpy frame1.data.bytes kEngineNames Data.kDataBufferLength
  let frame1 := { frame1 with data := frame1.data.withBytes mem }
  let frame2 : CanFrame := { id := Identifier.mk' kRequestConfigData s.senderHash }
  let (mem, n) ← snprintf frame2.data.bytes Data.kDataBufferLength text
  let frame2 := { frame2 with data := { frame2.data.withBytes mem with dlc := BitVec.ofNat 8 n } }
  if frame2.data.dlc.toNat ≤ CanDataMaxLength then
    let start := match s.callbacks.configData with
      | none => []
      | some cb => [Call.cfgStart cb]
    let t1 ← s.txSend frame1
    let t2 ← s.txSend frame2
    .ok (s, calls ++ start ++ t1 ++ t2)
  else .ok (s, calls)

theorem run_list (w : World) :
    w.run [.parserStart 0 (some 0), .requestEngineList 0 (some 0)] =
      (w.run [.parserStart 0 (some 0)]).bind fun w => w.stationUpdate (listRequest (str "0 2") w.station (some 0)) := by
  rw [← listText_zero]
  show (w.run [.parserStart 0 (some 0)]).bind (fun w => (w.stationUpdate (w.station.RequestEngineList 0 (some 0))).bind .ok) = _
  congr 1
  funext v
  generalize h : v.stationUpdate _ = r
  have : v.stationUpdate (listRequest (Station.engineListText 0) v.station (some 0)) = r := h
  rw [this]
  cases r <;> rfl

/-- test/integration/EngineLibraryTest.cpp:34-47,94-114 -/
theorem EngineLibrary_Download_Enginelist :
    passes (do
      let w ← fixture
      let w ← w.run [.parserStart 0 (some 0), .requestEngineList 0 (some 0)]
      let v ← w.run (← download testData1 0x34e1)
      .ok (seen w, [← Util.Request_Config_Data (lit "loknamen"), ← Util.Request_Config_Data (lit "0 2")], seen v, v.consumers 0))
      (fun (before, expected, after, c) => decide (before = (expected, [])) && decide (after = (expected, [(7, 0, true)])) &&
        match c with
        | .list l => l.numEnginesKnownByMaster == some 12
        | _ => false) = true := by
  simp only [run_list]
  decide +kernel

/-- A download of an engine, test/integration/EngineLibraryTest.cpp:49-81: the frames sent and those expected, the calls of the end
callback, the engine before and after. -/
def downloadEngine (chunks : List (List Byte)) (crc : U16) :
    Res ((List CanFrame × List (Nat × Nat × Bool)) × List CanFrame × Locomotive × Locomotive) := do
  let w ← fixture
  let w ← w.run [.parserStart 0 (some 1), .setName 1 (lit "98 1001"), .requestEngine 1 (some 0), .setEngine 1 (some 0)]
  let v ← w.run (← download chunks crc)
  .ok (seen v, [← Util.Request_Config_Data_Len (lit "lokinfo") 8, ← Util.Request_Config_Data_Len (lit "98 1001") 8,
    ← Util.Request_Config_Data_Len (lit "") 8], w.engines 0, v.engines 0)

set_option maxRecDepth 20000 in
/-- test/integration/EngineLibraryTest.cpp:116-132 -/
theorem EngineLibrary_Download_Engine_1 :
    passes (downloadEngine testData2 0xdecc) (fun (s, expected, before, after) =>
      decide (s = (expected, [(7, 1, true)])) &&
      decide (before.data.uid ≠ 0xc00a ∧ text before.protocol ≠ some (str "dcc") ∧ before.data.address ≠ ⟨0xa⟩) &&
      decide (after.data.uid = 0xc00a ∧ text after.protocol = some (str "dcc") ∧ after.data.address = ⟨0xa⟩)) = true := by
  decide +kernel

set_option maxRecDepth 20000 in
/-- test/integration/EngineLibraryTest.cpp:133-149 -/
theorem EngineLibrary_Download_Engine_2 :
    passes (downloadEngine testData3 0x9B2F) (fun (s, expected, before, after) =>
      decide (s = (expected, [(7, 1, true)])) &&
      decide (before.data.uid ≠ 0xc00a ∧ text before.protocol ≠ some (str "dcc") ∧ before.data.address ≠ ⟨0xa⟩) &&
      decide (after.data.uid = 0xc032 ∧ text after.protocol = some (str "dcc") ∧ after.data.address = ⟨0x32⟩)) = true := by
  decide +kernel

end RR32.Tests
