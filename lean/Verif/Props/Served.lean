import Verif.Proofs.Request
import Verif.Spec.Wire

/-! # C46: a requested consumer is served -/

set_option autoImplicit false

namespace RR32

open Spec

theorem wire_frames {first : CanFrame} {rest : List CanFrame} {items : List Item} {tail : Tail} (h : WireStream first rest items tail) :
    ∀ f ∈ first :: rest, IsStreamFrame f := by
  intro f hf
  refine ⟨h.command f hf, ?_⟩
  rcases List.mem_cons.mp hf with rfl | hf
  · rcases h.isFirst with h | h <;> omega
  · have := h.data f.data (List.mem_map.mpr ⟨f, hf, rfl⟩)
    omega

/-- A stream at a station whose parser `n` was started and is otherwise fresh: the consumer is called with the entries and the end. -/
theorem World.stream_served (v : World) (n : Nat) (hn : v.station.callbacks.configData = some n) (p : StreamParser) (s : Reader)
    (h : SInv p s) (hv : v.parsers n = p.startStream) (hl : p.text.state = .LOOKING_FOR_KEY_OR_SECTION_START) (first : CanFrame)
    (rest : List CanFrame) (items : List Item) (tail : Tail) (hw : WireStream first rest items tail) :
    ∃ q, v.run ((first :: rest).map .handle) =
      (v.setParser n q).callConsumers ((say p.consumer ((entriesOf (content p.text.sect) items).map .entry ++ [.complete])).map callOf) ∧
      q.state = .STREAM_DONE ∧ q.consumer = p.consumer := by
  have hne : rest.map (·.data) ≠ [] := by simpa using hw.nonempty
  obtain ⟨q, calls, h1, h2, h3, -, h4⟩ := download_run p s h first.data hw.isFirst (rest.map (·.data)) hw.data hne (by
    rw [List.length_map]; exact hw.length)
  rw [document_chunks p s h hl _ items tail hw.wellFormed hw.fits hw.tailWellFormed hw.tailFits hw.payload] at h4
  rcases h4 with ⟨-, g2, g3⟩ | ⟨g1, -⟩
  · have hcan := canonical_run p s h _ q calls h1
    have h5 : streamRun (v.parsers n) ((first :: rest).map (fun f => .add f.data)) = .ok (q, calls) := by
      rw [hv]
      have e : (rest.map (·.data)).map StreamOp.add = rest.map (fun f => .add f.data) := by rw [List.map_map]; rfl
      simp only [download, e] at h1
      obtain ⟨⟨q', c'⟩, a1, a2⟩ := bind_ok (show (streamRun p.startStream (.add first.data :: rest.map (fun f => .add f.data)) >>=
        fun x => (.ok (x.1, [] ++ x.2) : Res _)) = .ok (q, calls) from h1)
      rw [List.nil_append] at a2
      rw [List.map_cons, a1]
      exact a2
    refine ⟨q, ?_, g2, h3⟩
    rw [World.frames_run (first :: rest) v n hn s (by rw [hv]; exact start_sinv p s h) (wire_frames hw) q calls h5, canonical_eq hcan g3]
  · exact absurd hw.crc g1

/-- C46, for a parser that is not registered at the time of the request: the next stream is exactly the calls of its entries and of the
end on the consumer, in any state of a program in which the application leaves the packets to the station (see `C46_history_partial`).
Missing: a parser that is registered from an earlier request, for which it is false (`C46_false`). -/
theorem C46_served_partial (w : World) (h : Sound w) (ht : Tidy w) (cb : Nat) (htx : w.station.callbacks.tx = some cb) (n c : Nat)
    (hi : (w.consumers c).Initialised) (hreg : w.station.callbacks.configData ≠ some n) (op : Op) (hr : Requests w n op)
    (first : CanFrame) (rest : List CanFrame) (items : List Item) (tail : Tail) (hw : WireStream first rest items tail) :
    ∃ v q, w.run [.parserStart n (some c), op] = .ok v ∧
      v.run ((first :: rest).map .handle) = (v.setParser n q).callConsumers (calls c ((entriesOf [] items).map .entry ++ [.complete])) ∧
      v.engines = w.engines ∧ v.pf = w.pf ∧ (w.consumers c).AbortedFrom (v.consumers c) := by
  obtain ⟨s, hs⟩ := h.parsers n
  have hf := ht n hreg
  have h1 := (C58_step w h (.parserStart n (some c)) hi).2 _ rfl
  have hr' : Requests (w.setParser n ((w.parsers n).startStreamConsumer (some c))) n op := by
    have hp : (w.setParser n ((w.parsers n).startStreamConsumer (some c))).processing = w.processing := by
      unfold World.processing
      show (match w.station.callbacks.configData with | none => false | some n' => _) = _
      cases hc : w.station.callbacks.configData with
      | none => rfl
      | some m =>
        simp only [World.setParser]
        rw [if_neg (fun e => hreg (by rw [hc, e]))]
    cases hr with
    | engineList o => exact .engineList o
    | engine e hk ht hp' => exact .engine e hk ht (by rw [hp]; exact hp')
    | shortInfo i hk ht hp' => exact .shortInfo i hk ht (by rw [hp]; exact hp')
  obtain ⟨v, a1, a2, a3, a4, a5, a6, a7, -⟩ := hr'.effect h1 (show _ = some cb from htx)
  have hnew : v.parsers n = ((w.parsers n).startStreamConsumer (some c)).startStream := by
    rw [a4, if_neg (show ¬((w.setParser n ((w.parsers n).startStreamConsumer (some c))).station.callbacks.configData = some n) from hreg),
      World.setParser_get]
  have hfresh := fresh_attach hf (some c)
  obtain ⟨q, b1, -⟩ := World.stream_served v n (by rw [a3]) _ s (attach_sinv _ s hs (some c)) hnew (by rw [hfresh.2]; rfl) first rest items
    tail hw
  rw [hfresh.2] at b1
  refine ⟨v, q, ?_, ?_, a5, a6, a7 c⟩
  · rw [World.run_cons]
    show (World.step (w.setParser n ((w.parsers n).startStreamConsumer (some c))) op).bind _ = _
    rw [a1]
    rfl
  · rw [b1]
    have : content (conc .start ((w.parsers n).startStreamConsumer (some c)).consumer []).sect = [] := ofc.content_eq ..
    rw [this]
    rfl

/-- C46, from the start of the program, for every history in which the application leaves the packets to the station; for a consumer
of the application, which is told the entries and the end and nothing else. -/
theorem C46_history_partial (pf : Platform) (kind : Nat → Consumer) (engines : Engines) (ops : List Op) (w : World)
    (hrun : (World.new pf kind engines).run ops = .ok w) (ha : AllAllowed (World.new pf kind engines) ops)
    (ho : ∀ op ∈ ops, op.viaStation = true) (cb : Nat) (htx : w.station.callbacks.tx = some cb) (n c : Nat)
    (happ : w.consumers c = .app) (hreg : w.station.callbacks.configData ≠ some n) (op : Op) (hr : Requests w n op)
    (first : CanFrame) (rest : List CanFrame) (items : List Item) (tail : Tail) (hw : WireStream first rest items tail) :
    ∃ v u, w.run [.parserStart n (some c), op] = .ok v ∧ v.run ((first :: rest).map .handle) = .ok u ∧
      u.log = v.log ++ (calls c ((entriesOf [] items).map .entry ++ [.complete])).map .consumer := by
  obtain ⟨ht, hs⟩ := tidy_history ops _ w (tidy_new pf kind engines) (C58_start pf kind engines) ha ho hrun
  obtain ⟨v, q, h1, h2, -, -, h5⟩ := C46_served_partial w hs ht cb htx n c (by rw [happ]; trivial) hreg op hr first rest items tail hw
  have happ' : v.consumers c = .app := by
    rcases h5 with h5 | ⟨l, h5, -⟩
    · rw [h5, happ]
    · rw [happ] at h5; cases h5
  refine ⟨v, _, h1, by rw [h2, World.app_calls (v.setParser n q) c happ'], rfl⟩

/-- C46 holds in every state, registered or not, if the consumer is attached after the request. -/
theorem C46_attach_after (w : World) (h : Sound w) (ht : Tidy w) (cb : Nat) (htx : w.station.callbacks.tx = some cb) (n c : Nat)
    (op : Op) (hr : Requests w n op) (first : CanFrame) (rest : List CanFrame) (items : List Item)
    (tail : Tail) (hw : WireStream first rest items tail) :
    ∃ v q, w.run [op, .parserStart n (some c)] = .ok v ∧
      v.run ((first :: rest).map .handle) = (v.setParser n q).callConsumers (calls c ((entriesOf [] items).map .entry ++ [.complete])) := by
  obtain ⟨v, a1, a2, a3, a4, -⟩ := hr.effect h htx
  have hbase : ∃ p s, v.parsers n = StreamParser.startStream p ∧ SInv p s ∧ Fresh p := by
    by_cases hreg : w.station.callbacks.configData = some n
    · rw [if_pos hreg] at a4
      exact ⟨_, _, a4, cleared_sinv, fresh_cleared⟩
    · rw [if_neg hreg] at a4
      obtain ⟨s, hs⟩ := h.parsers n
      exact ⟨_, s, a4, hs, ht n hreg⟩
  obtain ⟨p, s, hp, hs, hf⟩ := hbase
  have hfresh := fresh_attach hf (some c)
  obtain ⟨q, b1, -⟩ := World.stream_served (v.setParser n ((v.parsers n).startStreamConsumer (some c))) n
    (by show v.station.callbacks.configData = _; rw [a3]) _ s (attach_sinv p s hs (some c)) (by
      rw [World.setParser_get, hp]; rfl) (by rw [hfresh.2]; rfl) first rest items tail hw
  rw [hfresh.2] at b1
  refine ⟨v.setParser n ((v.parsers n).startStreamConsumer (some c)), q, ?_, ?_⟩
  · rw [World.run_cons, a1]
    rfl
  · rw [b1]
    have : content (conc .start (p.startStreamConsumer (some c)).consumer []).sect = [] := ofc.content_eq ..
    rw [this]
    rfl

/-- C46 is false: whenever the parser is still registered from an earlier request, the request takes the consumer away, and the stream
that follows is received completely without any call on any consumer. -/
theorem C46_false (w : World) (h : Sound w) (cb : Nat) (htx : w.station.callbacks.tx = some cb) (n c : Nat)
    (hi : (w.consumers c).Initialised) (hreg : w.station.callbacks.configData = some n) (op : Op) (hr : Requests w n op)
    (first : CanFrame) (rest : List CanFrame) (items : List Item) (tail : Tail) (hw : WireStream first rest items tail) :
    ∃ v u, w.run [.parserStart n (some c), op] = .ok v ∧ v.run ((first :: rest).map .handle) = .ok u ∧ (v.parsers n).consumer = none ∧
      u.log = v.log ∧ u.consumers = v.consumers ∧ u.engines = v.engines ∧ (u.parsers n).state = .STREAM_DONE := by
  have h1 := (C58_step w h (.parserStart n (some c)) hi).2 _ rfl
  have hr' : Requests (w.setParser n ((w.parsers n).startStreamConsumer (some c))) n op := by
    have hp : (w.setParser n ((w.parsers n).startStreamConsumer (some c))).processing = w.processing := by
      unfold World.processing
      show (match w.station.callbacks.configData with | none => false | some n' => _) = _
      rw [hreg]
      simp only [World.setParser, if_true]
      rfl
    cases hr with
    | engineList o => exact .engineList o
    | engine e hk ht hp' => exact .engine e hk ht (by rw [hp]; exact hp')
    | shortInfo i hk ht hp' => exact .shortInfo i hk ht (by rw [hp]; exact hp')
  obtain ⟨v, a1, -, a3, a4, -⟩ := hr'.effect h1 (show _ = some cb from htx)
  rw [if_pos (show (w.setParser n ((w.parsers n).startStreamConsumer (some c))).station.callbacks.configData = some n from hreg)] at a4
  obtain ⟨q, b1, b2, -⟩ := World.stream_served v n (by rw [a3]) cleared .start cleared_sinv a4 rfl first rest items tail hw
  refine ⟨v, _, ?_, b1, by rw [a4]; rfl, rfl, rfl, rfl, ?_⟩
  · rw [World.run_cons]
    show (World.step (w.setParser n ((w.parsers n).startStreamConsumer (some c))) op).bind _ = _
    rw [a1]
    rfl
  · show ((v.setParser n q).parsers n).state = _
    rw [World.setParser_get, b2]

/-! ## A case -/

/-- The packet with the document `[a].b=c⏎`. -/
def caseData : Data :=
  { dlc := 8#8, b0 := ch '[', b1 := ch 'a', b2 := ch ']', b3 := ch '.', b4 := ch 'b', b5 := ch '=', b6 := ch 'c', b7 := ch '\n' }

/-- The frames of the document `[a].b=c⏎`. -/
def caseFrames : CanFrame × List CanFrame :=
  ({ id := ⟨0x420301#32⟩, data := { dlc := 6#8, b3 := 8#8, b4 := ((crcOf (packetBytes caseData)) >>> 8).truncate 8, b5 := (crcOf (packetBytes caseData)).truncate 8 } },
   [{ id := ⟨0x420301#32⟩, data := caseData }])

theorem case_wire : WireStream caseFrames.1 caseFrames.2 [.section [] (str "a"), .entry [] (str "b") (str "c")] (.filler []) := by
  refine ⟨by decide, Or.inl rfl, by unfold AreData; decide, by decide, by decide +kernel, ?_, ?_, ?_, ?_, trivial, by decide⟩
  · rw [isCrcOf_iff]
    decide +kernel
  · intro i hi
    simp only [List.mem_cons, List.not_mem_nil, or_false] at hi
    rcases hi with rfl | rfl
    · exact ⟨(by unfold IsFiller; decide), (by unfold IsName; decide)⟩
    · exact ⟨(by unfold IsFiller; decide), (by unfold IsKey; decide), (by unfold IsValue; decide)⟩
  · intro i hi
    simp only [List.mem_cons, List.not_mem_nil, or_false] at hi
    rcases hi with rfl | rfl
    · exact (show (str "a").length ≤ maxSection by decide)
    · exact ⟨(by decide), (by decide)⟩
  · exact (show IsFiller [] by unfold IsFiller; decide)

/-- A history with a finished earlier request for another parser; then consumer 7 is attached to parser 0, which is requested. -/
example : ∃ w v u, (World.new ⟨32⟩ (fun _ => .app) (fun _ => Locomotive.construct [])).run
        [.begin_ 1#16 { tx := some 5 }, .parserStart 1 (some 8), .requestEngineList 0#8 (some 1)] = .ok w ∧
      w.run [.parserStart 0 (some 7), .requestEngineList 0#8 (some 0)] = .ok v ∧
      v.run ((caseFrames.1 :: caseFrames.2).map .handle) = .ok u ∧
      u.log = v.log ++ (calls 7 [.entry ⟨str "a", str "b", str "c"⟩, .complete]).map .consumer := by
  have hrun : ∃ w, (World.new ⟨32⟩ (fun _ => .app) (fun _ => Locomotive.construct [])).run
        [.begin_ 1#16 { tx := some 5 }, .parserStart 1 (some 8), .requestEngineList 0#8 (some 1)] = .ok w ∧
        w.station.callbacks.tx = some 5 ∧ w.consumers 7 = .app ∧ w.station.callbacks.configData = some 1 := by
    obtain ⟨w0, e0, e1, e2, e3⟩ : ∃ w0, (World.new ⟨32⟩ (fun _ => .app) (fun _ => Locomotive.construct [])).run
        [.begin_ 1#16 { tx := some 5 }, .parserStart 1 (some 8)] = .ok w0 ∧ Sound w0 ∧ w0.station.callbacks.tx = some 5 ∧
        w0.consumers 7 = .app := by
      refine ⟨_, rfl, ?_, rfl, rfl⟩
      refine (C58_history _ (C58_start ⟨32⟩ (fun _ => .app) (fun _ => Locomotive.construct []))
        [.begin_ 1#16 { tx := some 5 }, .parserStart 1 (some 8)] ⟨trivial, fun v hv => ⟨?_, fun _ _ => trivial⟩⟩).2 _ rfl
      cases hv
      trivial
    obtain ⟨w, a1, -, a3, -, -, -, a7, -⟩ := (Requests.engineList (w := w0) (n := 1) 0#8).effect e1 e2
    refine ⟨w, ?_, by rw [a3]; exact e2, ?_, by rw [a3]⟩
    · rw [show ([.begin_ 1#16 { tx := some 5 }, .parserStart 1 (some 8), .requestEngineList 0#8 (some 1)] : List Op) =
        [.begin_ 1#16 { tx := some 5 }, .parserStart 1 (some 8)] ++ [.requestEngineList 0#8 (some 1)] from rfl, World.run_append, e0]
      show (w0.step _).bind _ = _
      rw [a1]
      rfl
    · rcases a7 7 with h | ⟨l, h, -⟩
      · rw [h, e3]
      · rw [e3] at h; cases h
  obtain ⟨w, hw, h2, h3, h4⟩ := hrun
  obtain ⟨v, u, g1, g2, g3⟩ := C46_history_partial ⟨32⟩ (fun _ => .app) (fun _ => Locomotive.construct []) _ w hw (by
    refine ⟨trivial, fun v hv => ⟨?_, fun v' hv' => ⟨trivial, fun _ _ => trivial⟩⟩⟩
    cases hv
    trivial) (by decide) 5 h2 0 7 h3 (by rw [h4]; decide) _ (.engineList 0#8) caseFrames.1 caseFrames.2 _ _ case_wire
  exact ⟨w, v, u, hw, g1, g2, g3⟩

end RR32
