import Verif.Props.EndToEnd
import Verif.Props.NestedSend
import Verif.Props.Output
import Verif.Spec.Printed

/-! # C86: what is printed while a file is downloaded -/

set_option autoImplicit false

namespace RR32

open Spec

namespace World

variable (g : LogConfig)

theorem inTurn_append {α : Type} (f : World → α → Res (World × List Byte)) (w : World) (a b : List α) :
    inTurn f w (a ++ b) = (inTurn f w a).bind fun x => (inTurn f x.1 b).map fun y => (y.1, x.2 ++ y.2) := by
  induction a generalizing w with
  | nil =>
    show inTurn f w b = (inTurn f w b).map fun y => (y.1, [] ++ y.2)
    cases inTurn f w b <;> rfl
  | cons c a ih =>
    rw [List.cons_append, inTurn, inTurn]
    simp only [bind]
    cases f w c with
    | error e => rfl
    | ok x =>
      simp only [Except.bind]
      rw [ih]
      cases inTurn f x.1 a with
      | error e => rfl
      | ok y =>
        simp only [Except.bind]
        cases inTurn f y.1 b with
        | error e => rfl
        | ok z => simp only [Except.map, List.append_assoc]

theorem callConsumerO_setParser (w : World) (n : Nat) (p : StreamParser) (c : ConsumerCall) :
    callConsumerO g (w.setParser n p) c = (callConsumerO g w c).map fun x => (x.1.setParser n p, x.2) := by
  unfold callConsumerO
  rw [callConsumer_setParser, show (w.setParser n p).consumerText g c = w.consumerText g c from rfl]
  simp only [bind]
  cases w.consumerText g c with
  | error e => rfl
  | ok t => cases w.callConsumer c <;> rfl

theorem callsO_setParser (w : World) (n : Nat) (p : StreamParser) (cs : List ConsumerCall) :
    inTurn (callConsumerO g) (w.setParser n p) cs = (inTurn (callConsumerO g) w cs).map fun x => (x.1.setParser n p, x.2) := by
  induction cs generalizing w with
  | nil => rfl
  | cons c cs ih =>
    rw [inTurn, inTurn, callConsumerO_setParser]
    simp only [bind]
    cases callConsumerO g w c with
    | error e => rfl
    | ok x =>
      simp only [Except.bind, Except.map]
      rw [ih]
      cases inTurn (callConsumerO g) x.1 cs <;> rfl

/-- A packet that the parser waits for. -/
def Wanted (p : StreamParser) (d : Data) : Prop :=
  p.state = .WAITING_FIRST_PACKET ∧ IsFirst d ∨ p.state = .WAITING_DATA_PACKET ∧ d.dlc = 8#8

theorem first_dlc {d : Data} (hd : IsFirst d) : d.dlc = 6#8 ∨ d.dlc = 7#8 := by
  rcases hd with hd | hd
  · left; apply BitVec.eq_of_toNat_eq; simpa using hd
  · right; apply BitVec.eq_of_toNat_eq; simpa using hd

/-- In the template configuration the parser prints nothing about a packet it waits for. -/
theorem parserAddO_wanted (w : World) (n : Nat) (d : Data) (h : Wanted (w.parsers n) d) (q : StreamParser) (cs : List ConsumerCall)
    (hq : (w.parsers n).addMessage d = .ok (q, cs)) :
    w.parserAddO .template n d = inTurn (callConsumerO .template) (w.setParser n q) cs := by
  have hhead : (w.parsers n).headText .template d = .ok [] := by
    unfold StreamParser.headText
    rcases h with ⟨h1, h2⟩ | ⟨h1, h2⟩
    · rw [h1]
      dsimp only
      rw [if_pos (first_dlc h2)]
      rfl
    · rw [h1]
      dsimp only
      rw [if_pos h2]
      rfl
  have htail : (w.parsers n).tailText .template d q = .ok [] := by
    unfold StreamParser.tailText
    split
    · split <;> rfl
    · rfl
  have he : EndsLast cs := (message_printed .template hq).1
  conv => rhs; rw [← he, inTurn_append]
  unfold parserAddO
  simp only [bind, hhead, hq, htail, Except.bind, List.nil_append, List.append_nil]
  cases inTurn (callConsumerO .template) (w.setParser n q) (cs.filter (·.isEntry)) with
  | error e => rfl
  | ok x =>
    cases inTurn (callConsumerO .template) x.1 (cs.filter (!·.isEntry)) <;> rfl

/-- Nor does the station. -/
theorem handleO_wanted (w : World) (n : Nat) (hn : w.station.callbacks.configData = some n) (f : CanFrame) (hf : IsStreamFrame f)
    (h : Wanted (w.parsers n) f.data) : w.stepO .template (.handle f) = w.parserAddO .template n f.data := by
  have hp : w.processing = true := by
    rcases h with ⟨h, -⟩ | ⟨h, -⟩ <;> simp [World.processing, hn, StreamParser.isProcessing, h]
  have hc : f.id.getCommand = kConfigDataStream := (getCommand_iff f _).mpr hf.command
  have hneed : needsEngine f = false := by simp [needsEngine, hf.command]
  have htext : w.opText .template (.handle f) = .ok [] := by
    show w.handleText .template f = _
    unfold handleText
    have : w.station.packetText w.processing f = .ok [] := by
      unfold Station.packetText Station.configDataText
      rw [hc, hp, hn]
      rfl
    rw [this]
    rfl
  have hcalls : w.stationPart (.handle f) = some (.ok (w.station, [.cfgAdd n f.data])) := by
    simp only [stationPart, HandlePacket_eq, hneed]
    rw [if_neg (by simp), if_neg (by have := hf.dlc; omega)]
    have hr : reaction w.station.callbacks w.processing f = [.cfgAdd n f.data] := by
      simp only [reaction, hf.command, toward, hn, hp]
      rfl
    rw [hr]
    rfl
  unfold stepO
  rw [htext, hcalls]
  simp only [bind, Except.bind, inTurn, runCallO]
  cases w.parserAddO .template n f.data with
  | error e => rfl
  | ok x => simp

/-- Packets that the parser waits for, one after the other. -/
def AllWanted : StreamParser → List Data → Prop
  | _, [] => True
  | p, d :: ds => Wanted p d ∧ ∀ q cs, p.addMessage d = .ok (q, cs) → AllWanted q ds

theorem frames_runO (fs : List CanFrame) (w : World) (n : Nat) (hn : w.station.callbacks.configData = some n) (s : Reader)
    (h : SInv (w.parsers n) s) (hf : ∀ f ∈ fs, IsStreamFrame f) (ha : AllWanted (w.parsers n) (fs.map (·.data))) (q : StreamParser)
    (calls : List ConsumerCall) (hr : streamRun (w.parsers n) (fs.map (fun f => .add f.data)) = .ok (q, calls)) :
    w.runO .template (fs.map .handle) = inTurn (callConsumerO .template) (w.setParser n q) calls := by
  induction fs generalizing w s q calls with
  | nil =>
    cases hr
    rw [World.setParser_same]
    rfl
  | cons f fs ih =>
    obtain ⟨p1, c1, s1, h1, h2, -⟩ := stream_step (w.parsers n) s h (.add f.data)
    have h1' : (w.parsers n).addMessage f.data = .ok (p1, c1) := h1
    simp only [List.map_cons, streamRun, h1, bind, Except.bind] at hr
    cases hrr : streamRun p1 (fs.map (fun f => .add f.data)) with
    | error e => rw [hrr] at hr; cases hr
    | ok v =>
      rw [hrr] at hr
      injection hr with hr
      injection hr with hr1 hr2
      subst hr1
      subst hr2
      rw [List.map_cons, runO, inTurn, handleO_wanted w n hn f (hf f (List.mem_cons_self ..)) ha.1, parserAddO_wanted w n _ ha.1 _ _ h1',
        inTurn_append, ← World.setParser_twice w n p1 v.1, callsO_setParser _ (w.setParser n p1)]
      simp only [bind]
      cases hc : inTurn (callConsumerO .template) (w.setParser n p1) c1 with
      | error e => rfl
      | ok u =>
        have hcc := ((prints_callConsumers .template).same hc).1
        obtain ⟨⟨hst, -⟩, hpar⟩ := World.callConsumers_quiet _ _ _ hcc
        have hu : u.1.parsers n = p1 := by rw [hpar, World.setParser_get]
        have := ih u.1 (by rw [hst]; exact hn) s1 (by rw [hu]; exact h2) (fun x hx => hf x (List.mem_cons_of_mem _ hx))
          (by rw [hu]; exact ha.2 _ _ h1') v.1 v.2 (by rw [hu]; exact hrr)
        rw [runO] at this
        simp only [Except.bind, Except.map]
        rw [this]

theorem wanted_data (p : StreamParser) (s : Reader) (h : SInv p s) (hs : p.state = .WAITING_DATA_PACKET) (ds : List Data)
    (hd : AreData ds) (hlen : p.remaining.toNat = 8 * ds.length) : AllWanted p ds := by
  induction ds generalizing p s with
  | nil => trivial
  | cons d ds ih =>
    have hdlc : d.dlc = 8#8 := BitVec.eq_of_toNat_eq (hd d (List.mem_cons_self ..))
    refine ⟨Or.inr ⟨hs, hdlc⟩, fun q cs hq => ?_⟩
    obtain ⟨c, q', calls, hc, h1, h2, h3, h4, h5, h6, -⟩ := data_step p s h hs d hdlc
    rw [h1] at hq
    cases hq
    have hrem : q.remaining.toNat = 8 * ds.length := by
      rw [h3, BitVec.toNat_sub]
      have := p.remaining.isLt
      rw [hlen, List.length_cons] at *
      simp only [BitVec.toNat_ofNat]
      omega
    by_cases hds : ds = []
    · subst hds; trivial
    · have hpos : 0 < ds.length := List.length_pos_of_ne_nil hds
      have hnz : q.remaining ≠ 0#32 := by
        intro e
        rw [e, show (0#32).toNat = 0 from rfl] at hrem
        omega
      exact ih q _ h2 (by rw [h6, endState, if_neg hnz]) (fun x hx => hd x (List.mem_cons_of_mem _ hx)) hrem

theorem wanted_stream (p : StreamParser) (s : Reader) (h : SInv p s) (first : Data) (hf : IsFirst first) (ds : List Data) (hd : AreData ds)
    (hne : ds ≠ []) (hlen : announcedLength first = 8 * ds.length) : AllWanted p.startStream (first :: ds) := by
  refine ⟨Or.inl ⟨rfl, hf⟩, fun q cs hq => ?_⟩
  obtain ⟨c, -, he⟩ := first_step p.startStream s (start_sinv p s h) rfl first hf
  have hpos : 0 < ds.length := List.length_pos_of_ne_nil hne
  obtain ⟨q', cs', s', g1, g2, -⟩ := stream_step p.startStream s (start_sinv p s h) (.add first)
  have g1 : p.startStream.addMessage first = .ok (q', cs') := g1
  rw [hq] at g1
  cases g1
  rw [if_neg (by omega), hq] at he
  cases he
  refine wanted_data _ s' g2 rfl ds hd ?_
  have hlt : announcedLength first < 2 ^ 32 := by rw [← firstLength_eq]; exact BitVec.isLt _
  show (BitVec.ofNat 32 (announcedLength first)).toNat = _
  rw [BitVec.toNat_ofNat, Nat.mod_eq_of_lt hlt, hlen]

/-- A stream at a station whose parser `n` was started: all that is printed is what the consumers print. -/
theorem stream_printed (v : World) (n : Nat) (hn : v.station.callbacks.configData = some n) (p : StreamParser) (s : Reader)
    (h : SInv p s) (hv : v.parsers n = p.startStream) (hl : p.text.state = .LOOKING_FOR_KEY_OR_SECTION_START) (first : CanFrame)
    (rest : List CanFrame) (items : List Item) (tail : Tail) (hw : WireStream first rest items tail) :
    ∃ q, v.runO .template ((first :: rest).map .handle) = inTurn (callConsumerO .template) (v.setParser n q)
      ((say p.consumer ((entriesOf (content p.text.sect) items).map .entry ++ [.complete])).map callOf) := by
  have hne : rest.map (·.data) ≠ [] := by simpa using hw.nonempty
  have hlen : announcedLength first.data = 8 * (rest.map (·.data)).length := by rw [List.length_map]; exact hw.length
  obtain ⟨q, calls, h1, h2, h3, -, h4⟩ := download_run p s h first.data hw.isFirst (rest.map (·.data)) hw.data hne hlen
  rw [document_chunks p s h hl _ items tail hw.wellFormed hw.fits hw.tailWellFormed hw.tailFits hw.payload] at h4
  rcases h4 with ⟨-, g2, g3⟩ | ⟨g1, -⟩
  · have hcan := canonical_run p s h _ q calls h1
    have h5 : streamRun (v.parsers n) ((first :: rest).map (fun f => .add f.data)) = .ok (q, calls) := by
      rw [hv]
      have e : (rest.map (·.data)).map StreamOp.add = rest.map (fun f => .add f.data) := by rw [List.map_map]; rfl
      simp only [download, e] at h1
      obtain ⟨⟨q', c'⟩, a1, a2⟩ := bind_ok (show (streamRun p.startStream (.add first.data :: rest.map (fun f => .add f.data)) >>=
        fun x => (.ok (x.1, [] ++ x.2) : Res _)) = .ok (q, calls) from h1)
      rw [List.nil_append] at a2
      rw [List.map_cons, a1]
      exact a2
    refine ⟨q, ?_⟩
    rw [frames_runO (first :: rest) v n hn s (by rw [hv]; exact start_sinv p s h) (wire_frames hw)
      (by rw [hv]; exact wanted_stream p s h first.data hw.isFirst _ hw.data hne hlen) q calls h5, canonical_eq hcan g3]
  · exact absurd hw.crc g1

/-! ## Calls that print nothing -/

/-- Notifications of an abort print nothing. -/
theorem aborted_text {g : LogConfig} (w v : World) (cs : List ConsumerCall) (ha : ∀ c ∈ cs, c.action = .aborted) (t : List Byte)
    (h : inTurn (callConsumerO g) w cs = .ok (v, t)) : t = [] := by
  induction cs generalizing w v t with
  | nil => cases h; rfl
  | cons c cs ih =>
    rw [inTurn] at h
    obtain ⟨⟨u, t1⟩, h1, h⟩ := bind_ok h
    obtain ⟨⟨v', t2⟩, h2, h⟩ := bind_ok h
    cases h
    have e2 := ih u v (fun c hc => ha c (List.mem_cons_of_mem _ hc)) t2 h2
    unfold callConsumerO at h1
    obtain ⟨x, h3, h1⟩ := bind_ok h1
    obtain ⟨y, -, h1⟩ := bind_ok h1
    cases h1
    have : t1 = [] := by
      unfold consumerText at h3
      rw [ha c (List.mem_cons_self ..)] at h3
      split at h3 <;> simp_all
    rw [this, e2]
    rfl

theorem parserResetO_text {g : LogConfig} (w v : World) (n : Nat) (t : List Byte) (h : w.parserResetO g n = .ok (v, t)) : t = [] := by
  unfold parserResetO at h
  obtain ⟨⟨p, cs⟩, h1, h⟩ := bind_ok h
  refine aborted_text _ v cs ?_ t h
  unfold StreamParser.reset at h1
  obtain ⟨x, -, h1⟩ := bind_ok h1
  cases h1
  intro c hc
  unfold StreamParser.resetNotify at hc
  split at hc
  · unfold StreamParser.notify at hc
    split at hc
    · cases hc
    · rw [List.mem_singleton] at hc; rw [hc]
  · cases hc

theorem runCallsO_text {g : LogConfig} (w v : World) (cs : List Call) (hc : ∀ c ∈ cs, ∀ n d, c ≠ .cfgAdd n d) (t : List Byte)
    (h : inTurn (runCallO g) w cs = .ok (v, t)) : t = [] := by
  induction cs generalizing w v t with
  | nil => cases h; rfl
  | cons c cs ih =>
    rw [inTurn] at h
    obtain ⟨⟨u, t1⟩, h1, h⟩ := bind_ok h
    obtain ⟨⟨v', t2⟩, h2, h⟩ := bind_ok h
    cases h
    have e2 := ih u v (fun c h => hc c (List.mem_cons_of_mem _ h)) t2 h2
    have e1 : t1 = [] := by
      cases c with
      | cfgAdd n d => exact absurd rfl (hc _ (List.mem_cons_self ..) n d)
      | cfgReset n => exact parserResetO_text w u n t1 h1
      | _ => cases h1; rfl
    rw [e1, e2]
    rfl

theorem txSend_calls {s : Station} {f : CanFrame} {cs : List Call} (h : s.txSend f = .ok cs) : ∀ c ∈ cs, ∀ n d, c ≠ .cfgAdd n d := by
  unfold Station.txSend at h
  split at h
  · cases h
  · cases h
    intro c hc n d e
    rw [List.mem_singleton] at hc
    rw [hc] at e
    cases e

theorem finish_calls (s : Station) : ∀ c ∈ s.FinishCurrentConfigRequest.2, ∀ n d, c ≠ .cfgAdd n d := by
  unfold Station.FinishCurrentConfigRequest
  split
  · intro c hc; cases hc
  · intro c hc n d e
    rw [List.mem_singleton] at hc
    rw [hc] at e
    cases e

theorem start_calls (x : Nat) : ∀ c ∈ [Call.cfgStart x], ∀ n d, c ≠ .cfgAdd n d := by
  intro c hc n d e
  rw [List.mem_singleton] at hc
  rw [hc] at e
  cases e

theorem requestEngine_calls {s s' : Station} {b : Bool} {i : ShortInfo} {o : Option Nat} {cs : List Call}
    (h : s.RequestEngine b i o = .ok (s', cs)) : ∀ c ∈ cs, ∀ n d, c ≠ .cfgAdd n d := by
  unfold Station.RequestEngine at h
  split at h
  · cases h; intro c hc; cases hc
  split at h
  · cases h; intro c hc; cases hc
  dsimp only at h
  obtain ⟨m, -, h⟩ := bind_ok h
  obtain ⟨t1, h1, h⟩ := bind_ok h
  obtain ⟨len, -, h⟩ := bind_ok h
  obtain ⟨m2, -, h⟩ := bind_ok h
  obtain ⟨t2, h2, h⟩ := bind_ok h
  obtain ⟨d, -, h⟩ := bind_ok h
  obtain ⟨t3, h3, h⟩ := bind_ok h
  cases h
  intro c hc
  simp only [List.mem_append] at hc
  rcases hc with (((hc | hc) | hc) | hc) | hc
  · exact finish_calls s c hc
  · cases o with
    | none => cases hc
    | some x => exact start_calls x c hc
  · exact txSend_calls h1 c hc
  · exact txSend_calls h2 c hc
  · exact txSend_calls h3 c hc

theorem requestEngineList_calls {s s' : Station} {off : Byte} {o : Option Nat} {cs : List Call}
    (h : s.RequestEngineList off o = .ok (s', cs)) : ∀ c ∈ cs, ∀ n d, c ≠ .cfgAdd n d := by
  unfold Station.RequestEngineList at h
  dsimp only at h
  obtain ⟨m, -, h⟩ := bind_ok h
  obtain ⟨⟨m2, k⟩, -, h⟩ := bind_ok h
  dsimp only at h
  split at h
  · obtain ⟨t1, h1, h⟩ := bind_ok h
    obtain ⟨t2, h2, h⟩ := bind_ok h
    cases h
    intro c hc
    simp only [List.mem_append] at hc
    rcases hc with ((hc | hc) | hc) | hc
    · exact finish_calls s c hc
    · cases o with
      | none => cases hc
      | some x => exact start_calls x c hc
    · exact txSend_calls h1 c hc
    · exact txSend_calls h2 c hc
  · cases h
    exact finish_calls s

/-- Whether a call hands something received to the library. -/
def _root_.RR32.Op.receives : Op → Bool
  | .handle _ => true
  | .parserAdd _ _ => true
  | _ => false

theorem stationPart_calls {w : World} {op : Op} (ho : op.receives = false) {s : Station} {cs : List Call}
    (h : w.stationPart op = some (.ok (s, cs))) : ∀ c ∈ cs, ∀ n d, c ≠ .cfgAdd n d := by
  have pure' : ∀ (r : Res (List Call)), (∀ cs, r = .ok cs → ∀ c ∈ cs, ∀ n d, c ≠ .cfgAdd n d) →
      (do let calls ← r; .ok (w.station, calls) : Res (Station × List Call)) = .ok (s, cs) → ∀ c ∈ cs, ∀ n d, c ≠ .cfgAdd n d := by
    intro r hr he
    obtain ⟨x, h1, h2⟩ := bind_ok he
    cases h2
    exact hr _ h1
  cases op <;> simp only [stationPart, Option.some.injEq, reduceCtorEq] at h
  case handle f => cases ho
  case begin_ u c => cases h; exact finish_calls _
  case finish => injection h with h; have := congrArg (·.2) h; dsimp only at this; rw [← this]; exact finish_calls _
  case abort => injection h with h; have := congrArg (·.2) h; dsimp only at this; rw [← this]; exact finish_calls _
  case notifyReceived => injection h with h; have := congrArg (·.2) h; dsimp only at this; rw [← this]; exact finish_calls _
  case requestEngine e p => exact requestEngine_calls h
  case requestShortInfo i p => exact requestEngine_calls h
  case requestEngineList o p => exact requestEngineList_calls h
  case sendDirection e d =>
    refine pure' _ (fun cs h => ?_) h
    unfold Station.SendEngineDirection at h
    split at h
    · exact txSend_calls h
    · cases h; intro c hc; cases hc
  case requestAllFunctions e =>
    refine pure' _ (fun cs h => ?_) h
    intro c hc n d e
    obtain ⟨cb, f, hf⟩ := allFunctionsLoop_tx _ _ _ _ cs h c hc
    rw [hf] at e
    cases e
  all_goals exact pure' _ (fun cs h => txSend_calls h) h

end World

open World

/-- C86: in the template configuration only received data is written about: every other call prints nothing, whatever it makes the
consumers and callbacks do. -/
theorem C86_silent (w v : World) (op : Op) (ho : op.receives = false) (t : List Byte) (h : w.stepO .template op = .ok (v, t)) : t = [] := by
  unfold stepO at h
  obtain ⟨t0, h0, h⟩ := bind_ok h
  have e0 : t0 = [] := by
    cases op <;> try cases ho
    all_goals first
      | (cases h0; rfl)
      | (simp only [opText] at h0; split at h0 <;> first | (cases h0; rfl) | (split at h0 <;> cases h0 <;> rfl))
  subst e0
  split at h
  · rename_i r hr
    obtain ⟨⟨s, cs⟩, h1, h⟩ := bind_ok h
    obtain ⟨⟨v', t'⟩, h2, h⟩ := bind_ok h
    cases h
    subst h1
    exact runCallsO_text _ _ cs (stationPart_calls ho hr) _ h2
  · cases ho
  · exact parserResetO_text _ _ _ _ h
  · obtain ⟨x, -, h⟩ := bind_ok h
    cases h
    rfl

theorem C86_silent_run (w v : World) (ops : List Op) (ho : ∀ op ∈ ops, op.receives = false) (t : List Byte)
    (h : w.runO .template ops = .ok (v, t)) : t = [] := by
  induction ops generalizing w v t with
  | nil => cases h; rfl
  | cons op ops ih =>
    rw [runO, inTurn] at h
    obtain ⟨⟨u, t1⟩, h1, h⟩ := bind_ok h
    obtain ⟨⟨v', t2⟩, h2, h⟩ := bind_ok h
    cases h
    rw [C86_silent w u op (ho op (List.mem_cons_self ..)) t1 h1, ih u v (fun o h => ho o (List.mem_cons_of_mem _ h)) t2 h2]
    rfl

/-! ## The lines of the consumers -/

namespace World

/-- An engine consumer prints nothing about entries. -/
theorem loco_text (w v : World) (c : Nat) (l : LocoConsumer) (hc : w.consumers c = .loco l) (es : List Entry) (t : List Byte)
    (h : inTurn (callConsumerO .template) w (calls c (es.map .entry)) = .ok (v, t)) : t = [] := by
  induction es generalizing w v t with
  | nil => cases h; rfl
  | cons e es ih =>
    rw [List.map_cons, calls_cons, inTurn] at h
    obtain ⟨⟨u, t1⟩, h1, h⟩ := bind_ok h
    obtain ⟨⟨v', t2⟩, h2, h⟩ := bind_ok h
    cases h
    unfold callConsumerO at h1
    obtain ⟨x, h3, h1⟩ := bind_ok h1
    obtain ⟨y, h4, h1⟩ := bind_ok h1
    cases h1
    have e1 : t1 = [] := by
      unfold consumerText at h3
      simp only [callOf, hc] at h3
      obtain ⟨a, ha, h3⟩ := bind_ok h3
      cases ha
      obtain ⟨b, -, h3⟩ := bind_ok h3
      cases b with
      | none => cases h3; rfl
      | some n =>
        obtain ⟨d, hd, h3⟩ := bind_ok h3
        cases hd
        cases h3
        rfl
    have hu : u.consumers c = .loco l := by
      unfold callConsumer at h4
      simp only [callOf, logAll, hc] at h4
      obtain ⟨es', -, h4⟩ := bind_ok h4
      cases h4
      exact hc
    rw [e1, ih u v hu t2 h2]
    rfl

/-- A consumer of the application is not the library's text. -/
theorem app_text (x y : World) (c : Nat) (hx : x.consumers c = .app) (l : List Notice) (t : List Byte)
    (ht : inTurn (callConsumerO .template) x (calls c l) = .ok (y, t)) : t = [] := by
  induction l generalizing x t with
  | nil => cases ht; rfl
  | cons a l ih =>
    rw [calls_cons, inTurn] at ht
    obtain ⟨⟨u, t1⟩, g1, ht⟩ := bind_ok ht
    obtain ⟨⟨v', t2⟩, g2, ht⟩ := bind_ok ht
    cases ht
    unfold callConsumerO at g1
    obtain ⟨z, g3, g1⟩ := bind_ok g1
    obtain ⟨z', g4, g1⟩ := bind_ok g1
    cases g1
    have e1 : t1 = [] := by
      unfold consumerText at g3
      simp only [callOf, hx] at g3
      cases g3
      rfl
    have hu : u.consumers c = .app := by
      unfold callConsumer at g4
      simp only [callOf, logAll, hx] at g4
      cases g4
      exact hx
    rw [e1, ih u hu t2 g2]
    rfl

theorem complete_text (w v : World) (c : Nat) (t : List Byte) (h : inTurn (callConsumerO .template) w (calls c [.complete]) = .ok (v, t)) :
    w.consumerText .template ⟨c, .complete⟩ = .ok t ∧ w.callConsumers (calls c [.complete]) = .ok v := by
  refine ⟨?_, ((prints_callConsumers .template).same h).1⟩
  rw [show calls c [.complete] = [⟨c, .complete⟩] from rfl, inTurn] at h
  obtain ⟨⟨u, t1⟩, h1, h⟩ := bind_ok h
  cases h
  unfold callConsumerO at h1
  obtain ⟨x, h3, h1⟩ := bind_ok h1
  obtain ⟨y, h4, h1⟩ := bind_ok h1
  cases h1
  rw [h3, List.append_nil]

/-- The line of the list about an entry. -/
theorem consumeText_line (l : LocoListConsumer) (names : List (List Byte)) (hs : Shows l names) (used : Nat) (hu : names.length = min 2 used)
    (e : Entry) (he : ListSafe e) : l.consumeText (ofc 11 e.sect) (ofc 26 e.value) = .ok (listLine used e) := by
  obtain ⟨-, -, -, -, n5, n6, -⟩ := noNul_names
  obtain ⟨hf, hv, hsec⟩ := he
  unfold LocoListConsumer.consumeText kEngineNames LocoListConsumer.kSectionNumEngines lit listLine
  rw [strncmp_token 11 e.sect _ hf.sect n5, strncmp_token 11 e.sect _ hf.sect n6, findFirst_shows hs]
  simp only [NamesEngine, IsNumber, bind, Except.bind, cstr_text (terminated_ofc hv), cstr_text (terminated_ofc hsec), text_ofc]
  by_cases h1 : Matches (str "loknamen") e.sect
  · by_cases h2 : 2 ≤ used
    · rw [if_pos (show names.length = 2 by omega)]
      simp [h1, h2]
    · rw [if_neg (show ¬names.length = 2 by omega)]
      simp [h1, h2]
  · by_cases h2 : Matches (str "numloks") e.sect <;> simp [h1, h2]

theorem list_text (w v : World) (c : Nat) (l : LocoListConsumer) (hc : w.consumers c = .list l) (names : List (List Byte)) (hs : Shows l names)
    (used : Nat) (hu : names.length = min 2 used) (es : List Entry) (he : ∀ e ∈ es, ListSafe e) (t : List Byte)
    (h : inTurn (callConsumerO .template) w (calls c (es.map .entry)) = .ok (v, t)) :
    t = listLines used es ∧ ∃ l', v.consumers c = .list l' := by
  induction es generalizing w v t l names used with
  | nil => cases h; exact ⟨rfl, l, hc⟩
  | cons e es ih =>
    have hsafe := he e (List.mem_cons_self ..)
    rw [List.map_cons, calls_cons, inTurn] at h
    obtain ⟨⟨u, t1⟩, h1, h⟩ := bind_ok h
    obtain ⟨⟨v', t2⟩, h2, h⟩ := bind_ok h
    cases h
    unfold callConsumerO at h1
    obtain ⟨x, h3, h1⟩ := bind_ok h1
    obtain ⟨y, h4, h1⟩ := bind_ok h1
    cases h1
    have e1 : t1 = listLine used e := by
      unfold consumerText at h3
      simp only [callOf, hc] at h3
      obtain ⟨a, ha, h3⟩ := bind_ok h3
      cases ha
      rw [consumeText_line l names hs used hu e hsafe] at h3
      cases h3
      rfl
    obtain ⟨d, hd, hu'⟩ : ∃ d, listEntry w.pf l e = .ok d ∧ u.consumers c = .list d := by
      unfold callConsumer at h4
      simp only [callOf, logAll, hc] at h4
      obtain ⟨d, hd, h4⟩ := bind_ok h4
      cases h4
      exact ⟨d, hd, by simp [setConsumer]⟩
    by_cases hn : NamesEngine e
    · obtain ⟨d', g1, g2, -⟩ := C50_name w.pf l names hs e hsafe.1 hn (Or.inl hsafe.2.1)
      rw [hd] at g1
      cases g1
      obtain ⟨e2, r⟩ := ih u v d hu' _ g2 (used + 1) (by simp [hu]; omega) (fun e h => he e (List.mem_cons_of_mem _ h)) t2 h2
      refine ⟨?_, r⟩
      rw [e1, e2, listLines, if_pos hn]
    · have g2 : Shows d names := by
        by_cases hk : IsCount e
        · obtain ⟨x, -, g1⟩ := C50_count w.pf l e hsafe.1 hk hsafe.2.1
          rw [hd] at g1
          cases g1
          exact hs
        · rw [C50_other w.pf l e hsafe.1 hn hk (Or.inr hsafe.2.2)] at hd
          cases hd
          exact hs
      obtain ⟨e2, r⟩ := ih u v d hu' _ g2 used hu (fun e h => he e (List.mem_cons_of_mem _ h)) t2 h2
      refine ⟨?_, r⟩
      rw [e1, e2, listLines, if_neg hn]

/-- The request and the stream: all that is printed is what the consumer prints. -/
theorem served_printed (w : World) (h : Sound w) (ht : Tidy w) (cb : Nat) (htx : w.station.callbacks.tx = some cb) (n c : Nat)
    (hi : (w.consumers c).Initialised) (hreg : w.station.callbacks.configData ≠ some n) (op : Op) (hr : Requests w n op)
    (first : CanFrame) (rest : List CanFrame) (items : List Item) (tail : Tail) (hw : WireStream first rest items tail) :
    ∃ v q, w.runO .template [.parserStart n (some c), op] = .ok (v, []) ∧
      v.runO .template ((first :: rest).map .handle) =
        inTurn (callConsumerO .template) (v.setParser n q) (calls c ((entriesOf [] items).map .entry ++ [.complete])) ∧
      (w.consumers c).AbortedFrom (v.consumers c) := by
  obtain ⟨s, hs⟩ := h.parsers n
  have hf := ht n hreg
  have h1 := (C58_step w h (.parserStart n (some c)) hi).2 _ rfl
  have hr' : Requests (w.setParser n ((w.parsers n).startStreamConsumer (some c))) n op := by
    have hp : (w.setParser n ((w.parsers n).startStreamConsumer (some c))).processing = w.processing := by
      unfold World.processing
      show (match w.station.callbacks.configData with | none => false | some n' => _) = _
      cases hc : w.station.callbacks.configData with
      | none => rfl
      | some m =>
        simp only [World.setParser]
        rw [if_neg (fun e => hreg (by rw [hc, e]))]
    cases hr with
    | engineList o => exact .engineList o
    | engine e hk ht hp' => exact .engine e hk ht (by rw [hp]; exact hp')
    | shortInfo i hk ht hp' => exact .shortInfo i hk ht (by rw [hp]; exact hp')
  obtain ⟨v, a1, a2, a3, a4, a5, a6, a7, -⟩ := hr'.effect h1 (show _ = some cb from htx)
  have hnew : v.parsers n = ((w.parsers n).startStreamConsumer (some c)).startStream := by
    rw [a4, if_neg (show ¬((w.setParser n ((w.parsers n).startStreamConsumer (some c))).station.callbacks.configData = some n) from hreg),
      World.setParser_get]
  have hfresh := fresh_attach hf (some c)
  obtain ⟨q, b1⟩ := stream_printed v n (by rw [a3]) _ s (attach_sinv _ s hs (some c)) hnew (by rw [hfresh.2]; rfl) first rest items tail hw
  rw [hfresh.2] at b1
  have hrun : w.run [.parserStart n (some c), op] = .ok v := by
    rw [World.run_cons]
    show (World.step (w.setParser n ((w.parsers n).startStreamConsumer (some c))) op).bind _ = _
    rw [a1]
    rfl
  obtain ⟨t, ht⟩ := (C83_template w v _).mp hrun
  have hop : op.receives = false := by cases hr <;> rfl
  have e := C86_silent_run w v _ (by intro o ho; simp at ho; rcases ho with rfl | rfl; rfl; exact hop) t ht
  subst e
  refine ⟨v, q, ht, ?_, a7 c⟩
  rw [b1]
  have : content (conc .start ((w.parsers n).startStreamConsumer (some c)).consumer []).sect = [] := ofc.content_eq ..
  rw [this]
  rfl

theorem runO_append (g : LogConfig) (w : World) (a b : List Op) :
    w.runO g (a ++ b) = (w.runO g a).bind fun x => (x.1.runO g b).map fun y => (y.1, x.2 ++ y.2) := inTurn_append _ w a b

end World

/-- C86: a download for a consumer of the application prints nothing. -/
theorem C86_app (w : World) (h : Sound w) (ht : Tidy w) (cb : Nat) (htx : w.station.callbacks.tx = some cb) (n c : Nat)
    (hc : w.consumers c = .app) (hreg : w.station.callbacks.configData ≠ some n) (op : Op) (hr : Requests w n op)
    (first : CanFrame) (rest : List CanFrame) (items : List Item) (tail : Tail) (hw : WireStream first rest items tail) :
    ∃ u, w.runO .template ([.parserStart n (some c), op] ++ (first :: rest).map .handle) = .ok (u, []) := by
  obtain ⟨v, q, h1, h2, h3⟩ := served_printed w h ht cb htx n c (by rw [hc]; trivial) hreg op hr first rest items tail hw
  have hcv : v.consumers c = .app := by
    rcases h3 with h3 | ⟨l, h3, -⟩
    · rw [h3, hc]
    · rw [hc] at h3; cases h3
  obtain ⟨u, t, ht'⟩ : ∃ u t, inTurn (callConsumerO .template) (v.setParser n q) (calls c ((entriesOf [] items).map .entry ++ [.complete])) =
      .ok (u, t) :=
    ⟨_, (prints_callConsumers .template).good _ _ _ (World.app_calls (v.setParser n q) c hcv _) (fun h => by cases h)⟩
  have e := app_text (v.setParser n q) u c hcv _ t ht'
  subst e
  refine ⟨u, ?_⟩
  rw [runO_append, h1]
  simp only [Except.bind]
  rw [h2, ht']
  rfl

/-- C86: the download of an engine prints one line about the engine, after the last frame: what the engine, as it is then, prints about
itself. -/
theorem C86_engine (w : World) (h : Sound w) (ht : Tidy w) (hpf : 32 ≤ w.pf.longBits) (tx : Nat) (htx : w.station.callbacks.tx = some tx)
    (n c e cb : Nat) (l : LocoConsumer) (hc : w.consumers c = .loco l) (he : l.currentEngine = .obj e) (hcb : l.streamEndCallback = .obj cb)
    (hname : Terminated (w.engines e).info.name) (hprot : (w.engines e).protocol.length = 8)
    (hreg : w.station.callbacks.configData ≠ some n) (op : Op) (hr : Requests w n op) (first : CanFrame) (rest : List CanFrame)
    (items : List Item) (tail : Tail) (hw : WireStream first rest items tail) (uid address : U32) (protocol : List Byte)
    (hfile : EngineFile (entriesOf [] items) uid address protocol) :
    ∃ u x, w.runO .template ([.parserStart n (some c), op] ++ (first :: rest).map .handle) =
        .ok (u, str "Downloaded Engine: " ++ x ++ str "\n") ∧
      (u.engines e).printText = .ok x ∧ (u.engines e).data.uid = uid ∧ (u.engines e).data.address = ⟨address⟩ ∧
      cstr (u.engines e).protocol = .ok protocol ∧ (u.engines e).isFullDetailsKnown = true ∧
      (u.engines e).info.name = (w.engines e).info.name := by
  obtain ⟨v, q, h1, h2, h3⟩ := served_printed w h ht tx htx n c (by rw [hc]; exact ⟨(by rw [he]; intro h; cases h), (by rw [hcb]; intro h; cases h)⟩)
    hreg op hr first rest items tail hw
  have hcv : v.consumers c = .loco l := by
    rcases h3 with h3 | ⟨l', h3, -⟩
    · rw [h3, hc]
    · rw [hc] at h3; cases h3
  obtain ⟨v', u, a1, a2, a3, a4, a5, a6, a7, -⟩ := C49_download_partial w h ht hpf tx htx n c e cb l hc he hcb hname hprot hreg op hr first rest
    items tail hw uid address protocol hfile
  rw [C83_same _ _ _ _ _ h1] at a1
  cases a1
  obtain ⟨t, ht'⟩ := (C83_template v u _).mp a2
  have ht := ht'
  rw [h2, calls_append, inTurn_append] at ht
  obtain ⟨⟨y, t1⟩, g1, ht⟩ := bind_ok ht
  dsimp only at ht
  cases g2 : inTurn (callConsumerO .template) y (calls c [.complete]) with
  | error er => rw [g2] at ht; cases ht
  | ok z =>
    obtain ⟨z, t2⟩ := z
    rw [g2] at ht
    obtain rfl : z = u := congrArg (·.1) (Except.ok.inj ht)
    obtain rfl : t1 ++ t2 = t := congrArg (·.2) (Except.ok.inj ht)
    have e1 := loco_text (v.setParser n q) _ c l hcv _ _ g1
    have hy : y.consumers c = .loco l := by
      have hp := ((prints_callConsumers .template).same g1).1
      rw [World.loco_entries (v.setParser n q) c l hcv e he] at hp
      cases hk : consumeEntries (v.setParser n q).pf ((v.setParser n q).engines e) (entriesOf [] items) with
      | error er => rw [hk] at hp; cases hp
      | ok k => rw [hk] at hp; cases hp; exact hcv
    obtain ⟨g3, g4⟩ := complete_text y z c t2 g2
    unfold consumerText at g3
    simp only [hy, he, Ptr.read, bind, Except.bind] at g3
    unfold LocoConsumer.completeText at g3
    obtain ⟨x, g5, g3⟩ := bind_ok g3
    cases g3
    have hu : z.engines e = (y.engines e).setAvailability .FULL_DETAILS := by
      rw [show calls c [.complete] = [⟨c, .complete⟩] from rfl, World.callConsumers_cons] at g4
      obtain ⟨u', g6, g4⟩ := bind_ok g4
      cases g4
      unfold callConsumer at g6
      simp only [logAll, hy, LocoConsumer.setStreamComplete, he, hcb, Ptr.read, bind, Except.bind] at g6
      cases hp : ((y.engines e).setAvailability .FULL_DETAILS).print with
      | error er => rw [hp] at g6; cases g6
      | ok o =>
        rw [hp] at g6
        cases g6
        simp [Engines.set]
    refine ⟨z, x, ?_, by rw [hu]; exact g5, a3, a4, a5, a6, a7⟩
    rw [runO_append, h1]
    simp only [Except.bind]
    rw [ht', e1]
    rfl

/-- C86: the download of the list prints a line for every name, in the order of the file, until the table is full, and a line for every
entry of a section that is not known. -/
theorem C86_list (w : World) (h : Sound w) (ht : Tidy w) (hpf : 9 ≤ w.pf.longBits) (tx : Nat) (htx : w.station.callbacks.tx = some tx)
    (n c cb : Nat) (l : LocoListConsumer) (hc : w.consumers c = .list l) (hempty : Shows l []) (hcb : l.streamEndCallback = .obj cb)
    (hreg : w.station.callbacks.configData ≠ some n) (op : Op) (hr : Requests w n op) (first : CanFrame) (rest : List CanFrame)
    (items : List Item) (tail : Tail) (hw : WireStream first rest items tail) (ns : List (List Byte)) (count : Byte)
    (hfile : ListFile (entriesOf [] items) ns count) :
    ∃ u d, w.runO .template ([.parserStart n (some c), op] ++ (first :: rest).map .handle) = .ok (u, listLines 0 (entriesOf [] items)) ∧
      u.consumers c = .list d ∧ Shows d (ns.take 2) := by
  obtain ⟨v, q, h1, h2, h3⟩ := served_printed w h ht tx htx n c (by rw [hc]; show l.streamEndCallback ≠ _; rw [hcb]; intro h; cases h)
    hreg op hr first rest items tail hw
  obtain ⟨l', hcv, hl1⟩ : ∃ l', v.consumers c = .list l' ∧ Shows l' [] := by
    rcases h3 with h5 | ⟨l', h5, h6⟩
    · exact ⟨l, by rw [h5, hc], hempty⟩
    · rw [hc] at h5
      cases h5
      refine ⟨_, h6, ?_⟩
      have := shows_clear l (by
        have := congrArg List.length hempty.2
        simpa using this)
      exact this
  obtain ⟨v', u, d, a1, a2, a3, a4, -⟩ := C51_download_partial w h ht hpf tx htx n c cb l hc hempty hcb hreg op hr first rest
    items tail hw ns count hfile
  rw [C83_same _ _ _ _ _ h1] at a1
  cases a1
  obtain ⟨t, ht'⟩ := (C83_template v u _).mp a2
  have ht := ht'
  rw [h2, calls_append, inTurn_append] at ht
  obtain ⟨⟨y, t1⟩, g1, ht⟩ := bind_ok ht
  dsimp only at ht
  cases g2 : inTurn (callConsumerO .template) y (calls c [.complete]) with
  | error er => rw [g2] at ht; cases ht
  | ok z =>
    obtain ⟨z, t2⟩ := z
    rw [g2] at ht
    obtain rfl : z = u := congrArg (·.1) (Except.ok.inj ht)
    obtain rfl : t1 ++ t2 = t := congrArg (·.2) (Except.ok.inj ht)
    obtain ⟨e1, l2, hy⟩ := list_text (v.setParser n q) _ c l' hcv [] hl1 0 rfl _ (fun x hx =>
      ⟨entriesOf_fits items [] (Nat.zero_le _) hw.fits x hx, (hfile.readable x hx).1, (hfile.readable x hx).2⟩) _ g1
    obtain ⟨g3, -⟩ := complete_text y z c t2 g2
    unfold consumerText at g3
    simp only [hy] at g3
    cases g3
    refine ⟨z, d, ?_, a3, a4⟩
    rw [runO_append, h1]
    simp only [Except.bind]
    rw [ht', e1]
    simp [Except.map]

/-- C86, for a list with nothing in it but names and numbers: two names are stored, and for every further name there is a complaint. -/
theorem C86_names (es : List Entry) (hn : ∀ e ∈ es, NamesEngine e ∨ IsNumber e) :
    listLines 0 es = ((namesIn es).take 2).flatMap (fun x => str "Storing Engine " ++ x ++ str "\n") ++
      (List.replicate ((namesIn es).length - 2) (str "No free Engine buffer found.\n")).flatten := by
  have key : ∀ (es : List Entry) (used : Nat), (∀ e ∈ es, NamesEngine e ∨ IsNumber e) →
      listLines used es = ((namesIn es).take (2 - used)).flatMap (fun x => str "Storing Engine " ++ x ++ str "\n") ++
        (List.replicate ((namesIn es).length - (2 - used)) (str "No free Engine buffer found.\n")).flatten := by
    intro es
    induction es with
    | nil => intro used _; simp [listLines, namesIn]
    | cons e es ih =>
      intro used h
      have h' := ih (if NamesEngine e then used + 1 else used) (fun x hx => h x (List.mem_cons_of_mem _ hx))
      rw [listLines, h']
      by_cases hne : NamesEngine e
      · have hc : namesIn (e :: es) = text e.value :: namesIn es := by simp [namesIn, hne]
        rw [hc, listLine, if_pos hne, if_pos hne]
        by_cases hu : 2 ≤ used
        · rw [if_pos hu, show 2 - (used + 1) = 0 by omega, show 2 - used = 0 by omega]
          simp [List.replicate_succ]
        · rw [if_neg hu, show 2 - used = (2 - (used + 1)) + 1 by omega]
          simp
      · have hc : namesIn (e :: es) = namesIn es := by simp [namesIn, hne]
        have hnum := (h e (List.mem_cons_self ..)).resolve_left hne
        rw [hc, listLine, if_neg hne, if_pos hnum, if_neg hne]
        rfl
  exact key es 0 hn

/-! ## Cases -/

/-- A download of an engine. -/
example : ∃ (w u : World) (first : CanFrame) (rest : List CanFrame) (pad : Nat) (t : List Byte),
    WireStream first rest caseEngine (.filler (List.replicate pad 0#8)) ∧
    w.runO .template ([.parserStart 0 (some 7), .requestEngine 3 (some 0)] ++ (first :: rest).map .handle) =
      .ok (u, str "Downloaded Engine: " ++ t ++ str "\n") ∧ (u.engines 3).printText = .ok t := by
  let eng : Locomotive := { Locomotive.construct (List.replicate 8 0#8) with info := { availability := .NAME_KNOWN, name := str "BR 12" ++ List.replicate 12 0#8 } }
  obtain ⟨w, -, h2, h3, h4, h5, h6, h7, h8⟩ := started (fun _ => .loco ⟨.obj 3, .obj 9⟩) (fun _ => eng)
  obtain ⟨first, rest, pad, hw, -⟩ := wire_exists caseEngine (by decide +kernel) (by decide +kernel) (by decide) (by decide +kernel)
  obtain ⟨u, t, g1, g2, -⟩ := C86_engine w h2 h3 (by rw [h4]) 5 h5 0 7 3 9 ⟨.obj 3, .obj 9⟩ (by rw [h6]) rfl rfl
    (by rw [h7]; unfold Terminated; decide) (by rw [h7]; rfl) (by rw [h8]; decide) _
    (.engine 3 (by rw [h7]; rfl) (by rw [h7]; unfold Terminated; decide) (Or.inl h8)) first rest _ _ hw _ _ _ caseEngine_file.matched
  exact ⟨w, u, first, rest, pad, t, hw, g1, g2⟩

/-- A download of the list, with three names, and all that is printed. -/
example : ∃ (w u : World) (first : CanFrame) (rest : List CanFrame) (pad : Nat),
    WireStream first rest caseList (.filler (List.replicate pad 0#8)) ∧
    w.runO .template ([.parserStart 0 (some 7), .requestEngineList 0#8 (some 0)] ++ (first :: rest).map .handle) =
      .ok (u, str "Storing Engine BR 12\nStoring Engine 0x1\nNo free Engine buffer found.\n") := by
  let l : LocoListConsumer := { LocoListConsumer.construct with streamEndCallback := .obj 9 }
  obtain ⟨w, -, h2, h3, h4, h5, h6, h7, h8⟩ := started (fun _ => .list l) (fun _ => Locomotive.construct [])
  obtain ⟨first, rest, pad, hw, -⟩ := wire_exists caseList (by decide +kernel) (by decide +kernel) (by decide) (by decide +kernel)
  obtain ⟨u, d, g1, -⟩ := C86_list w h2 h3 (by rw [h4]; decide) 5 h5 0 7 9 l (by rw [h6]) ⟨by decide, rfl⟩ rfl
    (by rw [h8]; decide) _ (.engineList 0#8) first rest _ _ hw _ _ caseList_file.matched
  refine ⟨w, u, first, rest, pad, hw, ?_⟩
  rw [g1, show listLines 0 (entriesOf [] caseList) = str "Storing Engine BR 12\nStoring Engine 0x1\nNo free Engine buffer found.\n" by decide +kernel]

/-- An entry of another section. -/
example : listLines 2 [⟨str "session", str "id", str "1"⟩] = str "Received config data for uninteresting section 'session'.\n" := by decide +kernel

end RR32
