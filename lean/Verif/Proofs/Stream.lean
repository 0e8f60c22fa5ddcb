import Verif.Model.StreamParser
import Verif.Spec.Stream
import Verif.Proofs.Bits
import Verif.Props.Crc
import Verif.Props.Text

/-! # The stream parser -/

set_option autoImplicit false

namespace RR32

open Spec

/-- The public calls on a stream parser. -/
inductive StreamOp where
  | start
  | attach (c : Option Nat)
  | add (d : Data)
  | reset

/-- 1 for `startStream()`, 0 for other calls. -/
def StreamOp.starts : StreamOp → Nat
  | .start => 1
  | _ => 0

/-- The effect of a call: the new parser and the calls on consumers. -/
def streamStep (p : StreamParser) : StreamOp → Res (StreamParser × List ConsumerCall)
  | .start => .ok (p.startStream, [])
  | .attach c => .ok (p.startStreamConsumer c, [])
  | .add d => p.addMessage d
  | .reset => p.reset

/-- The effect of a sequence of calls. -/
def streamRun (p : StreamParser) : List StreamOp → Res (StreamParser × List ConsumerCall)
  | [] => .ok (p, [])
  | op :: ops => do
      let (q, calls) ← streamStep p op
      let (r, calls') ← streamRun q ops
      .ok (r, calls ++ calls')

/-- A parser reachable by any calls from the constructor, on memory with any content. -/
def ReachableStream (p : StreamParser) : Prop :=
  ∃ a b c d t ops calls, a.length = 31 ∧ b.length = 11 ∧ c.length = 11 ∧ d.length = 26 ∧ TextParser.construct a b c d = .ok t ∧
    streamRun (StreamParser.construct t) ops = .ok (p, calls)

/-- What a call says to which consumer. -/
def noticeOf (c : ConsumerCall) : Nat × Notice :=
  (c.consumer, match c.action with
    | .consume s k v => .entry { sect := content s, key := content k, value := content v }
    | .complete => .complete
    | .aborted => .aborted)

/-- Notices to a consumer, if there is one. -/
def say (c : Option Nat) (l : List Notice) : List (Nat × Notice) :=
  match c with
  | none => []
  | some n => l.map (fun x => (n, x))

theorem say_append (c : Option Nat) (a b : List Notice) : say c (a ++ b) = say c a ++ say c b := by
  cases c <;> simp [say]

theorem notices_events (c : Option Nat) (es : List Entry) :
    ((toEvents c es).map StreamParser.ofParseEvent).map noticeOf = say c (es.map .entry) := by
  cases c with
  | none => simp [toEvents, toEvent, say]
  | some n =>
    induction es with
    | nil => rfl
    | cons e es ih =>
      simp only [toEvents, toEvent, say, List.flatMap_cons, List.map_cons, List.singleton_append] at *
      rw [ih]
      simp [StreamParser.ofParseEvent, noticeOf, ofc.content_eq]

theorem notices_notify_complete (p : StreamParser) : (p.notify .complete).map noticeOf = say p.consumer [.complete] := by
  cases h : p.consumer <;> simp [StreamParser.notify, say, h, noticeOf]

theorem notices_notify_aborted (p : StreamParser) : (p.notify .aborted).map noticeOf = say p.consumer [.aborted] := by
  cases h : p.consumer <;> simp [StreamParser.notify, say, h, noticeOf]

/-! ## The first packet -/

theorem firstLength_eq (d : Data) : (StreamParser.firstLength d).toNat = announcedLength d := by
  have h0 := d.b0.isLt
  have h1 := d.b1.isLt
  have h2 := d.b2.isLt
  have h3 := d.b3.isLt
  have e : StreamParser.firstLength d = d.b3.zeroExtend 32 ||| ((d.b2.zeroExtend 32 <<< 8) ||| ((d.b1.zeroExtend 32 <<< 16) |||
      (d.b0.zeroExtend 32 <<< 24))) := by
    unfold StreamParser.firstLength
    rw [BitVec.or_comm, BitVec.or_comm _ (d.b2.zeroExtend 32 <<< 8), BitVec.or_comm (d.b0.zeroExtend 32 <<< 24)]
  have n : ∀ x : Byte, (x.zeroExtend 32).toNat = x.toNat := by intro x; simp; omega
  have s0 : (d.b0.zeroExtend 32 <<< 24).toNat = 2 ^ 24 * d.b0.toNat := by rw [toNat_shl, n]; omega
  have s1 : (d.b1.zeroExtend 32 <<< 16).toNat = 2 ^ 16 * d.b1.toNat := by rw [toNat_shl, n]; omega
  have s2 : (d.b2.zeroExtend 32 <<< 8).toNat = 2 ^ 8 * d.b2.toNat := by rw [toNat_shl, n]; omega
  have t1 : (d.b1.zeroExtend 32 <<< 16 ||| d.b0.zeroExtend 32 <<< 24).toNat = 2 ^ 16 * (d.b1.toNat + 2 ^ 8 * d.b0.toNat) := by
    rw [toNat_or_low _ _ 24 d.b0.toNat (by omega) s0]; omega
  have t2 : (d.b2.zeroExtend 32 <<< 8 ||| (d.b1.zeroExtend 32 <<< 16 ||| d.b0.zeroExtend 32 <<< 24)).toNat =
      2 ^ 8 * (d.b2.toNat + 2 ^ 8 * (d.b1.toNat + 2 ^ 8 * d.b0.toNat)) := by
    rw [toNat_or_low _ _ 16 _ (by omega) t1]; omega
  rw [e, toNat_or_low _ _ 8 _ (by rw [n]; omega) t2, n, t2, announcedLength]
  omega

theorem firstCrc_eq (d : Data) : StreamParser.firstCrc d = announcedCrc d := by
  apply BitVec.eq_of_toNat_eq
  have h4 := d.b4.isLt
  have h5 := d.b5.isLt
  have n : ∀ x : Byte, (x.zeroExtend 16).toNat = x.toNat := by intro x; simp; omega
  have s : (d.b4.zeroExtend 16 <<< 8).toNat = 2 ^ 8 * d.b4.toNat := by rw [toNat_shl, n]; omega
  rw [StreamParser.firstCrc, BitVec.or_comm, toNat_or_low _ _ 8 _ (by rw [n]; omega) s, n, s, announcedCrc, BitVec.toNat_ofNat]
  omega

theorem isCrcOf_iff (c : U16) (m : List Byte) : IsCrcOf c m ↔ crcOf m = c := by
  rw [IsCrcOf, ← C29_crc]
  constructor
  · intro h
    exact (msbBits_inj _ _ (bitsPoly_inj _ _ (by simp [msbBits_length]) h)).symm
  · intro h; rw [h]

/-! ## The invariant -/

/-- A stream parser between calls: its text parser is between calls and has the same consumer; the checksum was initialised before the
first stream. -/
structure SInv (p : StreamParser) (s : Reader) : Prop where
  text : Rep p.text s p.consumer
  crc : p.crc = none → p.state = .IDLE ∧ p.remaining = 0#32

/-- The eight bytes of a data packet. -/
def packetBytes (d : Data) : List Byte := [d.b0, d.b1, d.b2, d.b3, d.b4, d.b5, d.b6, d.b7]

theorem payload_nil : payload [] = [] := rfl
theorem payload_cons (d : Data) (ds : List Data) : payload (d :: ds) = packetBytes d ++ payload ds := rfl
theorem payload_flatten (ds : List Data) : (ds.map packetBytes).flatten = payload ds := by
  rw [payload, List.flatMap_def]; rfl
theorem payload_length (ds : List Data) : (payload ds).length = 8 * ds.length := by
  induction ds with
  | nil => rfl
  | cons d ds ih => rw [payload_cons, List.length_append, ih, List.length_cons, packetBytes]; simp; omega

theorem rep_state (p : TextParser) (s : Reader) (c : Option Nat) (h : Rep p s c) : p.consumer = c := by rw [h.eq]; rfl

/-- The parser after `reset`. -/
def cleared : StreamParser :=
  { state := .IDLE, remaining := 0#32, text := conc .start none [], crc := some Crc.reset, consumer := none }

theorem reset_sinv (p : StreamParser) (s : Reader) (h : SInv p s) : p.reset = .ok (cleared, p.resetNotify) := by
  simp only [StreamParser.reset, StreamParser.resetClear, bind, Except.bind]
  rw [h.text.eq, reset_conc s h.text.fits]
  rfl

theorem cleared_sinv : SInv cleared .start := ⟨rep_start none, by intro h; cases h⟩

theorem start_sinv (p : StreamParser) (s : Reader) (h : SInv p s) : SInv p.startStream s := ⟨h.text, by intro h; cases h⟩

theorem attach_sinv (p : StreamParser) (s : Reader) (h : SInv p s) (c : Option Nat) : SInv (p.startStreamConsumer c) s := by
  refine ⟨⟨?_, h.text.fits, h.text.honest, h.text.clean, h.text.tidy⟩, h.crc⟩
  show p.text.setConsumer c = conc s c []
  rw [h.text.eq]
  rfl

theorem rep_chunk (s : Reader) (c : Option Nat) (h : Rep (conc s c []) s c) (l : List Byte) :
    Rep (conc (s.chunk l).1 c []) (s.chunk l).1 c :=
  ⟨rfl, Reader.fits_chunk s h.fits _, Reader.honest_chunk s h.honest _, (clean_chunk s h.clean h.fits _).1, tidy_chunk s h.tidy _⟩

/-- The state after a data packet. -/
def endState (rem : U32) (valid : Bool) : StreamState :=
  if rem = 0#32 then (if valid then .STREAM_DONE else .IDLE) else .WAITING_DATA_PACKET

/-- The end notification of a data packet. -/
def endNotice (rem : U32) (valid : Bool) : List Notice :=
  if rem = 0#32 then (if valid then [.complete] else [.aborted]) else []

/-- A data packet. -/
theorem data_step (p : StreamParser) (s : Reader) (h : SInv p s) (hs : p.state = .WAITING_DATA_PACKET) (d : Data) (hd : d.dlc = 8#8) :
    ∃ c q calls, p.crc = some c ∧ p.addMessage d = .ok (q, calls) ∧ SInv q (s.chunk (packetBytes d)).1 ∧
      q.remaining = p.remaining - 8#32 ∧ q.crc = some ((packetBytes d).foldl Crc.updateCrc c) ∧ q.consumer = p.consumer ∧
      q.state = endState q.remaining ((packetBytes d).foldl Crc.updateCrc c).isCrcValid ∧
      calls.map noticeOf = say p.consumer ((s.chunk (packetBytes d)).2.map .entry ++
        endNotice q.remaining ((packetBytes d).foldl Crc.updateCrc c).isCrcValid) ∧
      (∀ x ∈ calls, p.consumer = some x.consumer) := by
  cases hc : p.crc with
  | none => rw [(h.crc hc).1] at hs; cases hs
  | some c =>
    have hb : BufOk { mem := d.bytes, cap := d.dlc.toNat, len := CanDataMaxLength } := by
      rw [hd]; exact ⟨(show 8 ≤ 8 by decide), (show 8 ≤ 255 by decide), (show 8 ≤ 9 by decide)⟩
    have hcont : content { mem := d.bytes, cap := d.dlc.toNat, len := CanDataMaxLength } = packetBytes d := rfl
    have ht := addText_conc s h.text.fits p.consumer _ hb
    rw [hcont, ← h.text.eq] at ht
    have hcrc : d.bytes.take d.dlc.toNat = packetBytes d := by rw [hd]; rfl
    have hadd : p.addMessage d = p.addData d := by simp only [StreamParser.addMessage, hs]
    have hz : d.dlc.zeroExtend 32 = 8#32 := by rw [hd]; decide
    have hcall : ∀ x ∈ (toEvents p.consumer (s.chunk (packetBytes d)).2).map StreamParser.ofParseEvent, p.consumer = some x.consumer := by
      intro x hx
      obtain ⟨e, he, rfl⟩ := List.mem_map.mp hx
      simp only [toEvents, List.mem_flatMap] at he
      obtain ⟨y, -, hy⟩ := he
      cases hcon : p.consumer with
      | none => rw [hcon] at hy; cases hy
      | some n => rw [hcon] at hy; rw [List.mem_singleton.mp hy]; rfl
    have hnot : ∀ (q : StreamParser) a, q.consumer = p.consumer → ∀ x ∈ q.notify a, p.consumer = some x.consumer := by
      intro q a hq x hx
      rw [← hq]
      cases hcon : q.consumer with
      | none => simp [StreamParser.notify, hcon] at hx
      | some n => simp only [StreamParser.notify, hcon, List.mem_singleton] at hx; rw [hx]
    rw [hadd]
    simp only [StreamParser.addData, hd, ne_eq, not_true_eq_false, if_false, StreamParser.getCrc, hc, bind, Except.bind]
    simp only [hd] at ht hcrc hz
    have hrep : ∀ st rem crc, SInv { state := st, remaining := rem, text := conc (s.chunk (packetBytes d)).1 p.consumer [], crc := some crc, consumer := p.consumer }
        (s.chunk (packetBytes d)).1 := by
      intro st rem crc
      have hr := h.text
      rw [h.text.eq] at hr
      exact ⟨rep_chunk s p.consumer hr _, by intro h; cases h⟩
    rw [ht]
    simp only [hcrc, hz]
    by_cases hrem : p.remaining - 8#32 = 0#32
    · simp only [hrem, if_true]
      cases hv : ((packetBytes d).foldl Crc.updateCrc c).isCrcValid with
      | true =>
        simp only [if_true]
        refine ⟨c, _, _, rfl, rfl, hrep _ _ _, rfl, rfl, rfl, by rw [hv]; rfl, ?_, ?_⟩
        · rw [List.map_append, notices_events, notices_notify_complete, say_append, hv]; rfl
        · intro x hx
          rcases List.mem_append.mp hx with hx | hx
          · exact hcall x hx
          · exact hnot _ _ rfl x hx
      | false =>
        simp only [Bool.false_eq_true, if_false]
        refine ⟨c, _, _, rfl, rfl, hrep _ _ _, rfl, rfl, rfl, by rw [hv]; rfl, ?_, ?_⟩
        · rw [List.map_append, notices_events, notices_notify_aborted, say_append, hv]; rfl
        · intro x hx
          rcases List.mem_append.mp hx with hx | hx
          · exact hcall x hx
          · exact hnot _ _ rfl x hx
    · simp only [hrem, if_false]
      refine ⟨c, _, _, rfl, rfl, hrep _ _ _, rfl, rfl, rfl, ?_, ?_, hcall⟩
      · simp only [endState, hrem, if_false, hs]
      · rw [notices_events]; simp [endNotice, hrem]

/-- A first packet. -/
theorem first_step (p : StreamParser) (s : Reader) (h : SInv p s) (hs : p.state = .WAITING_FIRST_PACKET) (d : Data) (hd : IsFirst d) :
    ∃ c, p.crc = some c ∧ p.addMessage d =
      if announcedLength d = 0 then
        .ok ({ p with remaining := 0#32, crc := some (c.loadReference (announcedCrc d)), state := .STREAM_DONE }, p.notify .complete)
      else
        .ok ({ p with remaining := BitVec.ofNat 32 (announcedLength d), crc := some (c.loadReference (announcedCrc d)), state := .WAITING_DATA_PACKET }, []) := by
  cases hc : p.crc with
  | none => rw [(h.crc hc).1] at hs; cases hs
  | some c =>
    refine ⟨c, rfl, ?_⟩
    have hdlc : d.dlc = 6#8 ∨ d.dlc = 7#8 := by
      rcases hd with hd | hd
      · left; apply BitVec.eq_of_toNat_eq; simpa using hd
      · right; apply BitVec.eq_of_toNat_eq; simpa using hd
    have hl := firstLength_eq d
    have hlt := (StreamParser.firstLength d).isLt
    have hl' : BitVec.ofNat 32 (announcedLength d) = StreamParser.firstLength d := by
      rw [← hl, BitVec.ofNat_toNat, BitVec.setWidth_eq]
    simp only [StreamParser.addMessage, hs, StreamParser.addFirst, hdlc, if_true, StreamParser.getCrc, hc, bind, Except.bind, firstCrc_eq]
    by_cases hz : announcedLength d = 0
    · have : StreamParser.firstLength d = 0#32 := by rw [← hl', hz]
      rw [if_pos hz]
      simp only [this]
      rfl
    · have hpos : StreamParser.firstLength d > 0#32 := by
        rw [gt_iff_lt, BitVec.lt_def, hl]; simp; omega
      rw [if_neg hz, hl']
      simp only [hpos, if_true]

/-- Any packet that is not a first packet. -/
theorem first_bad (p : StreamParser) (hs : p.state = .WAITING_FIRST_PACKET) (d : Data) (hd : ¬IsFirst d) : p.addMessage d = p.reset := by
  have h6 : d.dlc ≠ 6#8 := fun e => hd (Or.inl (by rw [e]; rfl))
  have h7 : d.dlc ≠ 7#8 := fun e => hd (Or.inr (by rw [e]; rfl))
  simp only [StreamParser.addMessage, hs, StreamParser.addFirst, h6, h7, or_self, if_false]
  split
  · rfl
  · next h8 =>
    have h1 : d.dlc.toNat ≠ 6 := fun e => hd (Or.inl e)
    have h2 : d.dlc.toNat ≠ 7 := fun e => hd (Or.inr e)
    have : d.dlc < 6#8 := by
      rw [ge_iff_le, BitVec.le_def] at h8
      rw [BitVec.lt_def]
      simp at *
      omega
    rw [if_pos this]

theorem data_bad (p : StreamParser) (hs : p.state = .WAITING_DATA_PACKET) (d : Data) (hd : d.dlc ≠ 8#8) : p.addMessage d = p.reset := by
  simp only [StreamParser.addMessage, hs, StreamParser.addData, ne_eq, hd, not_false_eq_true, if_true]

theorem quiet_step (p : StreamParser) (hs : p.state = .IDLE ∨ p.state = .STREAM_DONE) (d : Data) : p.addMessage d = .ok (p, []) := by
  rcases hs with hs | hs <;> simp only [StreamParser.addMessage, hs]

/-- The calls a step makes go to the attached consumer. -/
theorem notify_consumer (p : StreamParser) (a : ConsumerAction) (x : ConsumerCall) (hx : x ∈ p.notify a) : p.consumer = some x.consumer := by
  cases hcon : p.consumer with
  | none => simp [StreamParser.notify, hcon] at hx
  | some n => simp only [StreamParser.notify, hcon, List.mem_singleton] at hx; rw [hx]

theorem resetNotify_consumer (p : StreamParser) (x : ConsumerCall) (hx : x ∈ p.resetNotify) : p.consumer = some x.consumer := by
  rw [StreamParser.resetNotify] at hx
  split at hx
  · exact notify_consumer p _ x hx
  · cases hx

/-- What one call does to a parser between calls. -/
theorem stream_step (p : StreamParser) (s : Reader) (h : SInv p s) (op : StreamOp) :
    ∃ q calls s', streamStep p op = .ok (q, calls) ∧ SInv q s' ∧ (∀ x ∈ calls, p.consumer = some x.consumer) ∧
      ((calls.map noticeOf).filter (fun n => n.2.isEnd)).length + (if q.isProcessing then 1 else 0) ≤
        (if p.isProcessing then 1 else 0) + op.starts ∧
      (p.isProcessing = false → calls = []) := by
  have hentries : ∀ (c : Option Nat) (es : List Entry) (l : List Notice),
      ((say c (es.map .entry ++ l)).filter (fun n => n.2.isEnd)).length ≤ l.length := by
    intro c es l
    cases c with
    | none => simp [say]
    | some n =>
      simp only [say, List.map_append, List.filter_append, List.length_append]
      have : (((es.map Notice.entry).map (fun x => (n, x))).filter (fun n => n.2.isEnd)) = [] := by
        rw [List.filter_eq_nil_iff]
        intro a ha
        obtain ⟨b, hb, rfl⟩ := List.mem_map.mp ha
        obtain ⟨e, he, rfl⟩ := List.mem_map.mp hb
        simp [Notice.isEnd]
      rw [this]
      have := List.length_filter_le (fun n : Nat × Notice => n.2.isEnd) (l.map (fun x => (n, x)))
      simp only [List.length_map, List.length_nil, Nat.zero_add] at this ⊢
      exact this
  have hreset : ∃ q calls s', p.reset = .ok (q, calls) ∧ SInv q s' ∧ (∀ x ∈ calls, p.consumer = some x.consumer) ∧
      ((calls.map noticeOf).filter (fun n => n.2.isEnd)).length + (if q.isProcessing then 1 else 0) ≤ (if p.isProcessing then 1 else 0) ∧
      (p.isProcessing = false → calls = []) := by
    refine ⟨_, _, _, reset_sinv p s h, cleared_sinv, resetNotify_consumer p, ?_, ?_⟩
    · have hc : cleared.isProcessing = false := rfl
      rw [hc]
      have hs : p.state = .WAITING_FIRST_PACKET ∨ p.state = .WAITING_DATA_PACKET → p.isProcessing = true := by
        rintro (e | e) <;> (simp [StreamParser.isProcessing, e])
      rw [StreamParser.resetNotify]
      split
      · next hw =>
        rw [hs hw, notices_notify_aborted]
        have := hentries p.consumer [] [.aborted]
        simpa using this
      · simp
    · intro hp
      rw [StreamParser.resetNotify, if_neg]
      rintro (e | e) <;> simp [StreamParser.isProcessing, e] at hp
  cases op with
  | start =>
    refine ⟨_, _, s, rfl, start_sinv p s h, by simp, ?_, by simp⟩
    simp only [StreamOp.starts, List.map_nil, List.filter_nil, List.length_nil]
    split <;> split <;> omega
  | attach c =>
    refine ⟨_, _, s, rfl, attach_sinv p s h c, by simp, ?_, by simp⟩
    simp only [StreamOp.starts, List.map_nil, List.filter_nil, List.length_nil, Nat.zero_add, Nat.add_zero]
    exact Nat.le_refl _
  | reset => simpa [streamStep, StreamOp.starts] using hreset
  | add d =>
    simp only [streamStep, StreamOp.starts, Nat.add_zero]
    cases hs : p.state with
    | IDLE => exact ⟨p, [], s, quiet_step p (Or.inl hs) d, h, by simp, by simp, by simp⟩
    | STREAM_DONE => exact ⟨p, [], s, quiet_step p (Or.inr hs) d, h, by simp, by simp, by simp⟩
    | WAITING_FIRST_PACKET =>
      have hp : p.isProcessing = true := by simp [StreamParser.isProcessing, hs]
      by_cases hd : IsFirst d
      · obtain ⟨c, hc, he⟩ := first_step p s h hs d hd
        rw [he]
        split
        · refine ⟨_, _, s, rfl, ⟨h.text, by intro h; cases h⟩, notify_consumer p _, ?_, by rw [hp]; intro h; cases h⟩
          rw [notices_notify_complete]
          have := hentries p.consumer [] [.complete]
          simp only [List.map_nil, List.nil_append, List.length_singleton] at this
          simpa [StreamParser.isProcessing] using this
        · refine ⟨_, _, s, rfl, ⟨h.text, by intro h; cases h⟩, by simp, ?_, by simp⟩
          simp [StreamParser.isProcessing]
      · rw [first_bad p hs d hd]
        exact hreset
    | WAITING_DATA_PACKET =>
      have hp : p.isProcessing = true := by simp [StreamParser.isProcessing, hs]
      by_cases hd : d.dlc = 8#8
      · obtain ⟨c, q, calls, -, h1, h2, h3, h4, h5, h6, h7, h8⟩ := data_step p s h hs d hd
        refine ⟨q, calls, _, h1, h2, h8, ?_, by rw [hp]; intro h; cases h⟩
        rw [h7, hp]
        refine Nat.le_trans (Nat.add_le_add_right (hentries _ _ _) _) ?_
        simp only [StreamParser.isProcessing, h6, endNotice, endState]
        split <;> split <;> (try split) <;> simp_all
      · rw [data_bad p hs d hd]
        exact hreset

theorem stream_run (p : StreamParser) (s : Reader) (h : SInv p s) (ops : List StreamOp) :
    ∃ q calls s', streamRun p ops = .ok (q, calls) ∧ SInv q s' := by
  induction ops generalizing p s with
  | nil => exact ⟨p, [], s, rfl, h⟩
  | cons op ops ih =>
    obtain ⟨q, calls, s', h1, h2, -⟩ := stream_step p s h op
    obtain ⟨r, calls', s'', h3, h4⟩ := ih q s' h2
    exact ⟨r, calls ++ calls', s'', by simp only [streamRun, h1, h3, bind, Except.bind], h4⟩

theorem construct_sinv (a b c d : List Byte) (ha : a.length = 31) (hb : b.length = 11) (hc : c.length = 11) (hd : d.length = 26)
    (t : TextParser) (ht : TextParser.construct a b c d = .ok t) : SInv (StreamParser.construct t) .start := by
  rw [construct_rep a b c d ha hb hc hd] at ht
  cases ht
  exact ⟨rep_start none, fun _ => ⟨rfl, rfl⟩⟩

theorem reachable_sinv (p : StreamParser) (h : ReachableStream p) : ∃ s, SInv p s := by
  obtain ⟨a, b, c, d, t, ops, calls, ha, hb, hc, hd, ht, hr⟩ := h
  obtain ⟨q, calls', s, h1, h2⟩ := stream_run _ _ (construct_sinv a b c d ha hb hc hd t ht) ops
  rw [hr] at h1
  cases h1
  exact ⟨s, h2⟩

theorem streamRun_append (p : StreamParser) (a b : List StreamOp) :
    streamRun p (a ++ b) = (do
      let (q, calls) ← streamRun p a
      let (r, calls') ← streamRun q b
      .ok (r, calls ++ calls')) := by
  induction a generalizing p with
  | nil =>
    simp only [List.nil_append, streamRun, bind, Except.bind]
    cases streamRun p b with
    | error e => rfl
    | ok v => rfl
  | cons op a ih =>
    simp only [List.cons_append, streamRun, bind, Except.bind, ih]
    cases streamStep p op with
    | error e => rfl
    | ok v =>
      simp only
      cases streamRun v.1 a with
      | error e => rfl
      | ok v2 =>
        simp only
        cases streamRun v2.1 b with
        | error e => rfl
        | ok v3 => simp

theorem reachable_step (p : StreamParser) (h : ReachableStream p) (ops : List StreamOp) (q : StreamParser) (calls : List ConsumerCall)
    (hr : streamRun p ops = .ok (q, calls)) : ReachableStream q := by
  obtain ⟨a, b, c, d, t, ops0, calls0, ha, hb, hc, hd, ht, hr0⟩ := h
  refine ⟨a, b, c, d, t, ops0 ++ ops, calls0 ++ calls, ha, hb, hc, hd, ht, ?_⟩
  simp only [streamRun_append, hr0, hr, bind, Except.bind]

/-! ## Data packets -/

/-- The message events of data packets: as many as announced. -/
theorem data_run (p : StreamParser) (s : Reader) (h : SInv p s) (hs : p.state = .WAITING_DATA_PACKET) (ds : List Data)
    (hd : AreData ds) (hne : ds ≠ []) (hlen : p.remaining.toNat = 8 * ds.length) :
    ∃ c q calls, p.crc = some c ∧ streamRun p (ds.map .add) = .ok (q, calls) ∧ SInv q (s.chunks (ds.map packetBytes)).1 ∧
      q.remaining = 0#32 ∧ q.consumer = p.consumer ∧
      q.state = endState 0#32 ((payload ds).foldl Crc.updateCrc c).isCrcValid ∧
      calls.map noticeOf = say p.consumer ((s.chunks (ds.map packetBytes)).2.map .entry ++
        endNotice 0#32 ((payload ds).foldl Crc.updateCrc c).isCrcValid) := by
  induction ds generalizing p s with
  | nil => exact absurd rfl hne
  | cons d ds ih =>
    have hdlc : d.dlc = 8#8 := BitVec.eq_of_toNat_eq (hd d (List.mem_cons_self ..))
    obtain ⟨c, q, calls, hc, h1, h2, h3, h4, h5, h6, h7, h8⟩ := data_step p s h hs d hdlc
    have hrem : q.remaining.toNat = 8 * ds.length := by
      rw [h3, BitVec.toNat_sub]
      have := p.remaining.isLt
      rw [hlen, List.length_cons] at *
      simp only [BitVec.toNat_ofNat]
      omega
    by_cases hds : ds = []
    · subst hds
      have hz : q.remaining = 0#32 := BitVec.eq_of_toNat_eq (by rw [hrem]; rfl)
      refine ⟨c, q, calls, hc, ?_, ?_, hz, h5, ?_, ?_⟩
      · simp only [List.map_cons, List.map_nil, streamRun, streamStep, h1, bind, Except.bind, List.append_nil]
      · simpa [Reader.chunks] using h2
      · rw [h6, hz]; simp [payload_cons, payload_nil]
      · rw [h7, hz]; simp [payload_cons, payload_nil, Reader.chunks]
    · have hpos : 0 < ds.length := List.length_pos_of_ne_nil hds
      have hnz : q.remaining ≠ 0#32 := by
        intro e
        rw [e, show (0#32).toNat = 0 from rfl] at hrem
        omega
      have hqs : q.state = .WAITING_DATA_PACKET := by rw [h6, endState, if_neg hnz]
      obtain ⟨c', r, calls', hc', g1, g2, g3, g4, g5, g6⟩ := ih q _ h2 hqs (fun x hx => hd x (List.mem_cons_of_mem _ hx)) hds hrem
      rw [h4] at hc'
      cases hc'
      refine ⟨c, r, calls ++ calls', hc, ?_, ?_, g3, by rw [g4, h5], ?_, ?_⟩
      · simp only [List.map_cons, streamRun, streamStep, h1, g1, bind, Except.bind]
      · simpa [Reader.chunks] using g2
      · rw [g5, payload_cons, List.foldl_append]
      · rw [List.map_append, h7, g6, h5, endNotice, if_neg hnz, ← say_append, payload_cons, List.foldl_append]
        simp [Reader.chunks]

/-- Data packets of a stream whose length is not a multiple of eight. -/
theorem data_never (p : StreamParser) (s : Reader) (h : SInv p s) (hs : p.state = .WAITING_DATA_PACKET) (ds : List Data)
    (hd : AreData ds) (hlen : p.remaining.toNat % 8 ≠ 0) :
    ∃ q calls, streamRun p (ds.map .add) = .ok (q, calls) ∧ q.state = .WAITING_DATA_PACKET ∧ (∀ n ∈ calls.map noticeOf, n.2.isEnd = false) := by
  induction ds generalizing p s with
  | nil => exact ⟨p, [], rfl, hs, by simp⟩
  | cons d ds ih =>
    have hdlc : d.dlc = 8#8 := BitVec.eq_of_toNat_eq (hd d (List.mem_cons_self ..))
    obtain ⟨c, q, calls, hc, h1, h2, h3, h4, h5, h6, h7, h8⟩ := data_step p s h hs d hdlc
    have hrem : q.remaining.toNat % 8 ≠ 0 := by
      rw [h3, BitVec.toNat_sub]
      simp only [BitVec.toNat_ofNat]
      omega
    have hnz : q.remaining ≠ 0#32 := by intro e; rw [e] at hrem; exact hrem rfl
    have hqs : q.state = .WAITING_DATA_PACKET := by rw [h6, endState, if_neg hnz]
    obtain ⟨r, calls', g1, g2, g3⟩ := ih q _ h2 hqs (fun x hx => hd x (List.mem_cons_of_mem _ hx)) hrem
    refine ⟨r, calls ++ calls', by simp only [List.map_cons, streamRun, streamStep, h1, g1, bind, Except.bind], g2, ?_⟩
    intro n hn
    rw [List.map_append] at hn
    rcases List.mem_append.mp hn with hn | hn
    · rw [h7, endNotice, if_neg hnz, List.append_nil] at hn
      cases hcon : p.consumer with
      | none => rw [hcon] at hn; cases hn
      | some m =>
        rw [hcon] at hn
        simp only [say, List.map_map, List.mem_map] at hn
        obtain ⟨e, -, rfl⟩ := hn
        rfl
    · exact g3 n hn

end RR32
