import Verif.Spec.Reason
import Verif.Props.Printed
import Verif.Props.Named

/-! # C98: the log says why received configuration data is not used -/

set_option autoImplicit false

namespace RR32

open Spec World

theorem messageText_reason (p : StreamParser) (d : Data) : p.messageText d = str (reason p.state d.dlc.toNat) := by
  have hl := d.dlc.isLt
  have h6 : (d.dlc = 6#8 ∨ d.dlc = 7#8) ↔ (6 ≤ d.dlc.toNat ∧ d.dlc.toNat ≤ 7) := by
    rw [← BitVec.toNat_inj, ← BitVec.toNat_inj]
    show d.dlc.toNat = 6 ∨ d.dlc.toNat = 7 ↔ _
    omega
  have h8 : d.dlc ≥ 8#8 ↔ 8 ≤ d.dlc.toNat := BitVec.le_def
  have h8' : d.dlc = 8#8 ↔ d.dlc.toNat = 8 := by rw [← BitVec.toNat_inj]; rfl
  unfold StreamParser.messageText reason
  cases p.state with
  | IDLE => rfl
  | STREAM_DONE => rfl
  | WAITING_FIRST_PACKET =>
    dsimp only
    by_cases a : d.dlc.toNat < 6
    · rw [if_neg (by rw [h6]; omega), if_neg (by rw [h8]; omega), if_pos a]
    · rw [if_neg a]
      by_cases b : 7 < d.dlc.toNat
      · rw [if_neg (by rw [h6]; omega), if_pos (by rw [h8]; omega), if_pos b]
      · rw [if_pos (by rw [h6]; omega), if_neg b]; rfl
  | WAITING_DATA_PACKET =>
    dsimp only
    by_cases a : d.dlc.toNat = 8
    · rw [if_neg (by rw [ne_eq, h8', not_not]; exact a), if_pos a]; rfl
    · rw [if_pos (by rw [ne_eq, h8']; exact a), if_neg a]

/-- C98: what the log says about different situations differs, and it says nothing only where the packet is used. -/
theorem C98_distinct (a b : StreamState) (m n : Nat) (h : reason a m = reason b n) :
    a = b ∧ (a = .WAITING_FIRST_PACKET → (m < 6 ↔ n < 6) ∧ (7 < m ↔ 7 < n)) ∧ (a = .WAITING_DATA_PACKET → (m = 8 ↔ n = 8)) ∨
    reason a m = "" := by
  by_cases h0 : reason a m = ""
  · exact .inr h0
  left
  unfold reason at h h0
  cases a <;> cases b <;> dsimp only at h h0 ⊢ <;> repeat' split at h
  all_goals first
    | exact absurd h (by decide)
    | exact absurd rfl h0
    | (rw [if_neg (by assumption), if_neg (by assumption)] at h0; exact absurd rfl h0)
    | (rw [if_pos (by assumption)] at h0; exact absurd rfl h0)
    | (refine ⟨rfl, ?_, ?_⟩ <;> intro hh <;> first | (exfalso; exact absurd hh (by decide)) | omega)

theorem reset_dropped {p q : StreamParser} {cs : List ConsumerCall} (hs : p.state = .WAITING_FIRST_PACKET ∨ p.state = .WAITING_DATA_PACKET)
    (h : p.reset = .ok (q, cs)) : Dropped p q cs := by
  unfold StreamParser.reset StreamParser.resetClear at h
  obtain ⟨r, h1, h⟩ := bind_ok h
  obtain ⟨t, -, h1⟩ := bind_ok h1
  cases h1
  cases h
  right
  refine ⟨rfl, rfl, ?_⟩
  unfold StreamParser.resetNotify StreamParser.notify
  rw [if_pos hs]
  cases p.consumer <;> rfl

/-- C98: the log mentions a packet exactly if it is not used. -/
theorem C98_used (p q : StreamParser) (d : Data) (cs : List ConsumerCall) (h : p.addMessage d = .ok (q, cs)) :
    (reason p.state d.dlc.toNat ≠ "" → Dropped p q cs) ∧
    (reason p.state d.dlc.toNat = "" →
      (p.state = .WAITING_FIRST_PACKET ∧ Begun p q d) ∨ (p.state = .WAITING_DATA_PACKET ∧ Continued p q)) := by
  have h6 : (d.dlc = 6#8 ∨ d.dlc = 7#8) ↔ (6 ≤ d.dlc.toNat ∧ d.dlc.toNat ≤ 7) := by
    rw [← BitVec.toNat_inj, ← BitVec.toNat_inj]
    show d.dlc.toNat = 6 ∨ d.dlc.toNat = 7 ↔ _
    omega
  have h8' : d.dlc = 8#8 ↔ d.dlc.toNat = 8 := by rw [← BitVec.toNat_inj]; rfl
  unfold StreamParser.addMessage at h
  unfold reason
  cases hs : p.state with
  | IDLE => rw [hs] at h; cases h; exact ⟨fun _ => .inl ⟨rfl, rfl⟩, fun e => by dsimp only at e; exact absurd e (by decide)⟩
  | STREAM_DONE => rw [hs] at h; cases h; exact ⟨fun _ => .inl ⟨rfl, rfl⟩, fun e => by dsimp only at e; exact absurd e (by decide)⟩
  | WAITING_FIRST_PACKET =>
    rw [hs] at h
    dsimp only at h ⊢
    unfold StreamParser.addFirst at h
    by_cases a : d.dlc = 6#8 ∨ d.dlc = 7#8
    · rw [if_pos a] at h
      rw [h6] at a
      rw [if_neg (by omega), if_neg (by omega)]
      refine ⟨fun e => absurd rfl e, fun _ => .inl ⟨rfl, ?_⟩⟩
      obtain ⟨crc, -, h⟩ := bind_ok h
      dsimp only at h
      split at h
      · rename_i hp
        cases h
        refine ⟨firstLength_eq d, rfl, ?_⟩
        rw [if_neg]
        intro e
        have e : StreamParser.firstLength d = 0#32 := e
        rw [e] at hp
        exact absurd hp (by decide)
      · rename_i hp
        cases h
        refine ⟨firstLength_eq d, rfl, ?_⟩
        rw [if_pos]
        show StreamParser.firstLength d = 0#32
        rw [gt_iff_lt, BitVec.lt_def] at hp
        apply BitVec.eq_of_toNat_eq
        show _ = 0
        have : (0#32).toNat = 0 := rfl
        omega
    · rw [if_neg a] at h
      rw [h6] at a
      have hd : Dropped p q cs := by
        split at h
        · exact reset_dropped (.inl hs) h
        · split at h
          · exact reset_dropped (.inl hs) h
          · cases h; exact .inl ⟨rfl, rfl⟩
      refine ⟨fun _ => hd, fun e => ?_⟩
      by_cases b : d.dlc.toNat < 6
      · rw [if_pos b] at e; exact absurd e (by decide)
      · rw [if_neg b, if_pos (by omega)] at e; exact absurd e (by decide)
  | WAITING_DATA_PACKET =>
    rw [hs] at h
    dsimp only at h ⊢
    unfold StreamParser.addData at h
    by_cases a : d.dlc = 8#8
    · rw [if_neg (by simpa using a)] at h
      rw [if_pos (h8'.mp a)]
      refine ⟨fun e => absurd rfl e, fun _ => .inr ⟨rfl, ?_⟩⟩
      obtain ⟨crc, -, h⟩ := bind_ok h
      obtain ⟨⟨text, evs⟩, -, h⟩ := bind_ok h
      dsimp only at h
      have e8 : d.dlc.zeroExtend 32 = 8#32 := by rw [a]; rfl
      rw [e8] at h
      split at h
      · rename_i hz
        split at h
        · cases h; exact ⟨rfl, fun e => absurd hz e, fun _ => .inl rfl⟩
        · cases h; exact ⟨rfl, fun e => absurd hz e, fun _ => .inr rfl⟩
      · rename_i hz
        cases h
        exact ⟨rfl, fun _ => hs, fun e => absurd e hz⟩
    · rw [if_pos a] at h
      exact ⟨fun _ => reset_dropped (.inr hs) h, fun e => by rw [if_neg (by rw [← h8']; exact a)] at e; exact absurd e (by decide)⟩

theorem own_text (x y : World) (hx : ∀ c, x.consumers c = .app) (cs : List ConsumerCall) (t : List Byte)
    (h : inTurn (callConsumerO .template) x cs = .ok (y, t)) : t = [] ∧ ∀ c, y.consumers c = .app := by
  induction cs generalizing x t with
  | nil => cases h; exact ⟨rfl, hx⟩
  | cons c cs ih =>
    rw [inTurn] at h
    obtain ⟨⟨u, t1⟩, h1, h⟩ := bind_ok h
    obtain ⟨⟨v, t2⟩, h2, h⟩ := bind_ok h
    cases h
    unfold callConsumerO at h1
    obtain ⟨t3, h3, h1⟩ := bind_ok h1
    obtain ⟨u', h4, h1⟩ := bind_ok h1
    cases h1
    have e3 : t1 = [] := by
      unfold consumerText at h3
      rw [hx] at h3
      cases h3; rfl
    have e4 : ∀ c, u.consumers c = .app := by
      unfold callConsumer at h4
      simp only [logAll] at h4
      rw [hx] at h4
      cases h4
      exact hx
    obtain ⟨a, b⟩ := ih u e4 t2 h2
    rw [e3, a]
    exact ⟨rfl, b⟩

/-- C98, for a packet given to a parser: what is printed in the template configuration about one that is not used is the reason; what is
printed about one that is used comes from consumers of the library. -/
theorem C98_packet (w v : World) (n : Nat) (d : Data) (t : List Byte) (h : w.parserAddO .template n d = .ok (v, t)) :
    (reason (w.parsers n).state d.dlc.toNat ≠ "" ∨ (∀ c, w.consumers c = .app) → t = str (reason (w.parsers n).state d.dlc.toNat)) := by
  unfold parserAddO at h
  obtain ⟨t1, h1, h⟩ := bind_ok h
  obtain ⟨⟨q, cs⟩, hq, h⟩ := bind_ok h
  obtain ⟨⟨u, t2⟩, h2, h⟩ := bind_ok h
  obtain ⟨t3, h3, h⟩ := bind_ok h
  obtain ⟨⟨x, t4⟩, h4, h⟩ := bind_ok h
  cases h
  have e1 : t1 = str (reason (w.parsers n).state d.dlc.toNat) := by
    rw [← messageText_reason]
    unfold StreamParser.headText at h1
    unfold StreamParser.messageText
    cases hs : (w.parsers n).state with
    | IDLE => rw [hs] at h1; unfold StreamParser.messageText at h1; simp only [hs] at h1; cases h1; rfl
    | STREAM_DONE => rw [hs] at h1; unfold StreamParser.messageText at h1; simp only [hs] at h1; cases h1; rfl
    | WAITING_FIRST_PACKET =>
      rw [hs] at h1
      dsimp only at h1 ⊢
      split at h1
      · cases h1; rw [if_pos (by assumption)]
      · unfold StreamParser.messageText at h1; simp only [hs] at h1; cases h1; rfl
    | WAITING_DATA_PACKET =>
      rw [hs] at h1
      dsimp only at h1 ⊢
      split at h1
      · cases h1; rw [if_neg (by simpa using (by assumption : d.dlc = 8#8))]
      · unfold StreamParser.messageText at h1; simp only [hs] at h1; cases h1; rfl
  have e3 : t3 = [] := by
    unfold StreamParser.tailText at h3
    split at h3
    · split at h3 <;> cases h3 <;> rfl
    · cases h3; rfl
  rw [e3, e1, List.append_nil]
  rintro (hr | hr)
  · have ha : ∀ c ∈ cs, c.action = .aborted := by
      rcases (C98_used _ q d cs hq).1 hr with ⟨-, rfl⟩ | ⟨-, -, rfl⟩
      · intro c hc; cases hc
      · intro c hc
        obtain ⟨i, -, rfl⟩ := List.mem_map.mp hc
        rfl
    rw [aborted_text _ _ _ (fun c hc => ha c (List.mem_filter.mp hc).1) t2 h2, aborted_text _ _ _ (fun c hc => ha c (List.mem_filter.mp hc).1) t4 h4]
    simp
  · obtain ⟨a, b⟩ := own_text (w.setParser n q) _ (fun c => hr c) _ t2 h2
    rw [a, (own_text _ _ b _ t4 h4).1]
    simp

/-- C98, for a received frame of configuration data: while the registered parser takes part in a stream, what is printed about a frame that
is not used is the reason; otherwise the frame is printed. A frame about which a program with its own consumers prints nothing is used. -/
theorem C98_frame (w v : World) (f : CanFrame) (hc : commandOf f = 0x21) (hl : f.data.dlc.toNat ≤ 8) (t : List Byte)
    (h : w.stepO .template (.handle f) = .ok (v, t)) :
    (∀ n, w.station.callbacks.configData = some n → w.processing = true → 
      reason (w.parsers n).state f.data.dlc.toNat ≠ "" ∨ (∀ c, w.consumers c = .app) → t = str (reason (w.parsers n).state f.data.dlc.toNat)) ∧
    (w.station.callbacks.configData = none ∨ w.processing = false →
      t = str "Ignoring ConfigData Stream: " ++ Spec.shown f.data ∧ v = w) := by
  have hc' : f.id.getCommand = kConfigDataStream := (getCommand_iff f _).mpr hc
  constructor
  · intro n hn hp hr
    have htext : w.opText .template (.handle f) = .ok [] := by
      show w.handleText .template f = _
      unfold handleText
      have : w.station.packetText w.processing f = .ok [] := by
        unfold Station.packetText Station.configDataText
        rw [hc', hp, hn]
        rfl
      rw [this]
      rfl
    have hcalls : w.stationPart (.handle f) = some (.ok (w.station, [.cfgAdd n f.data])) := by
      simp only [stationPart, HandlePacket_eq, show needsEngine f = false by simp [needsEngine, hc]]
      rw [if_neg (by simp), if_neg (by omega)]
      have hr : reaction w.station.callbacks w.processing f = [.cfgAdd n f.data] := by
        simp only [reaction, hc, toward, hn, hp]
        rfl
      rw [hr]
      rfl
    unfold stepO at h
    rw [htext, hcalls] at h
    simp only [bind, Except.bind, inTurn, runCallO] at h
    cases hx : w.parserAddO .template n f.data with
    | error e => rw [hx] at h; cases h
    | ok x =>
      rw [hx] at h
      have : x = (v, t) := by simpa using h
      exact C98_packet w v n f.data t (this ▸ hx) hr
  · intro hn
    have hw : (w.station.callbacks.configData.isSome && w.processing) = false := by
      rcases hn with hn | hn <;> simp [hn]
    have htext : w.opText .template (.handle f) = .ok (str "Ignoring ConfigData Stream: " ++ Spec.shown f.data) := by
      show w.handleText .template f = _
      unfold handleText
      rw [C96_logged _ _ _ hl, hw]
      unfold logged
      rw [hc]
      rfl
    have hcalls : w.stationPart (.handle f) = some (.ok (w.station, [])) := by
      simp only [stationPart, HandlePacket_eq, show needsEngine f = false by simp [needsEngine, hc]]
      rw [if_neg (by simp), if_neg (by omega)]
      have hr : reaction w.station.callbacks w.processing f = [] := by
        simp only [reaction, hc, toward]
        rcases hn with hn | hn <;> simp [hn]
      rw [hr]
      rfl
    unfold stepO at h
    rw [htext, hcalls] at h
    simp only [bind, Except.bind, inTurn] at h
    cases h
    exact ⟨by simp, rfl⟩

/-! ## Cases -/

private def waiting (s : StreamState) : World :=
  let w := World.new ⟨32⟩ (fun _ => .app) (fun _ => Locomotive.construct (List.replicate 8 0#8))
  { w with
    station := { w.station with callbacks := { w.station.callbacks with configData := some 3 } }
    parsers := fun _ => { (w.parsers 3).startStream with state := s, consumer := some 5 } }

private def packet (n : Nat) : CanFrame := { id := ⟨0x420301#32⟩, data := { dlc := BitVec.ofNat 8 n, b3 := 24#8, b6 := 65#8, b7 := 10#8 } }

private def said (s : StreamState) (n : Nat) : Option (List Byte × List LogEntry) :=
  ((waiting s).stepO .template (.handle (packet n))).toOption.map (fun r => (r.2, r.1.log))

/-- A first packet that is too short, one that is too long, and a short packet of data: the reason, and the consumer is told. -/
example : said .WAITING_FIRST_PACKET 5 = some (str "Undersized first packet! Aborting parse.\n", [.consumer ⟨5, .aborted⟩]) ∧
    said .WAITING_FIRST_PACKET 8 = some (str "Oversized first packet! Aborting parse.\n", [.consumer ⟨5, .aborted⟩]) ∧
    said .WAITING_DATA_PACKET 7 = some (str "Undersized data packet! Aborting parse.\n", [.consumer ⟨5, .aborted⟩]) := by decide +kernel

/-- First packets that are used: nothing is printed and nobody is told. -/
example : said .WAITING_FIRST_PACKET 6 = some ([], []) ∧ said .WAITING_FIRST_PACKET 7 = some ([], []) := by decide +kernel

/-- Parsers that do not take part in a stream: the payload is printed. -/
example : said .IDLE 8 = some (str "Ignoring ConfigData Stream: " ++ [0, 0, 0, 24, 0, 0, 65, 10], []) := by decide +kernel

/-- The frame meets the hypotheses of `C98_frame`. -/
example : Spec.commandOf (packet 5) = 0x21 ∧ (waiting .WAITING_FIRST_PACKET).processing = true ∧
    Spec.reason .WAITING_FIRST_PACKET (packet 5).data.dlc.toNat ≠ "" := by decide +kernel

/-- The program itself gives a packet to a parser that is done. -/
example : ((waiting .STREAM_DONE).parserAddO .template 3 (packet 8).data).toOption.map (·.2) =
    some (str "Received uninteresting config data (STREAM_DONE).\n") := by decide +kernel

end RR32
