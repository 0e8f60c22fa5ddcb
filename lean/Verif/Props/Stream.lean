import Verif.Proofs.Stream
import Verif.Props.Receive

/-! # C39 to C45, C13: the stream parser -/

set_option autoImplicit false

namespace RR32

open Spec

/-- Starting a stream and receiving its packets. -/
def download (first : Data) (ds : List Data) : List StreamOp := .start :: .add first :: ds.map .add

/-- A buffer with the bytes of a data packet. -/
def packetBuffer (d : Data) : BufferManager := ofc 8 (packetBytes d)

theorem sinv_reachable_text (p : StreamParser) (h : ReachableStream p) : ReachableText p.text ∧ p.text.consumer = p.consumer := by
  have key : ∀ (ops : List StreamOp) (q : StreamParser) (s : Reader), SInv q s → ReachableText q.text →
      ∀ r calls, streamRun q ops = .ok (r, calls) → ReachableText r.text := by
    intro ops
    induction ops with
    | nil => intro q s _ ht r calls hr; cases hr; exact ht
    | cons op ops ih =>
      intro q s hq ht r calls hr
      obtain ⟨q', calls', s', h1, h2, -⟩ := stream_step q s hq op
      simp only [streamRun, h1, bind, Except.bind] at hr
      cases hr2 : streamRun q' ops with
      | error e => rw [hr2] at hr; cases hr
      | ok v =>
        rw [hr2] at hr
        cases hr
        refine ih q' s' h2 ?_ v.1 v.2 hr2
        have hreset : ReachableText cleared.text := by
          obtain ⟨t, evs, h3, -, h4⟩ := C33_total q.text ht .reset trivial
          have := reset_conc s hq.text.fits q.consumer
          rw [← hq.text.eq] at this
          simp only [textStep, this, bind, Except.bind] at h3
          cases h3
          exact h4
        have hres : q.reset = .ok (q', calls') → ReachableText q'.text := by
          intro e
          rw [reset_sinv q s hq] at e
          cases e
          exact hreset
        cases op with
        | start => cases h1; exact ht
        | attach c =>
          cases h1
          obtain ⟨t, evs, h3, -, h4⟩ := C33_total q.text ht (.setConsumer c) trivial
          cases h3
          exact h4
        | reset => exact hres h1
        | add d =>
          simp only [streamStep] at h1
          cases hs : q.state with
          | IDLE => rw [quiet_step q (Or.inl hs)] at h1; cases h1; exact ht
          | STREAM_DONE => rw [quiet_step q (Or.inr hs)] at h1; cases h1; exact ht
          | WAITING_FIRST_PACKET =>
            by_cases hd : IsFirst d
            · obtain ⟨c, -, he⟩ := first_step q s hq hs d hd
              rw [he] at h1
              split at h1 <;> (cases h1; exact ht)
            · rw [first_bad q hs d hd] at h1
              exact hres h1
          | WAITING_DATA_PACKET =>
            by_cases hd : d.dlc = 8#8
            · have hok : (TextOp.add (packetBuffer d)).Ok := ofc.ok (by simp [packetBytes]) (by decide)
              obtain ⟨t, evs, h3, -, h4⟩ := C33_total q.text ht _ hok
              have h5 := addText_conc s hq.text.fits q.consumer _ hok
              rw [← hq.text.eq, packetBuffer, ofc.content_eq] at h5
              simp only [textStep, packetBuffer] at h3
              rw [h5] at h3
              cases h3
              obtain ⟨c, q'', calls'', -, g1, g2, -, -, g5, -⟩ := data_step q s hq hs d hd
              rw [g1] at h1
              cases h1
              rw [g2.text.eq, g5]
              exact h4
            · rw [data_bad q hs d hd] at h1
              exact hres h1
  obtain ⟨s, hs⟩ := reachable_sinv p h
  refine ⟨?_, by rw [hs.text.eq]; rfl⟩
  obtain ⟨a, b, c, d, t, ops, calls, ha, hb, hc, hd, ht, hr⟩ := h
  have h0 : ReachableText t := ⟨a, b, c, d, t, [], [], ha, hb, hc, hd, ht, by simp, rfl⟩
  exact key ops _ _ (construct_sinv a b c d ha hb hc hd t ht) h0 p calls hr

/-! ## C40 -/

theorem download_run (p : StreamParser) (s : Reader) (h : SInv p s) (first : Data) (hf : IsFirst first) (ds : List Data)
    (hd : AreData ds) (hne : ds ≠ []) (hlen : announcedLength first = 8 * ds.length) :
    ∃ q calls, streamRun p (download first ds) = .ok (q, calls) ∧ SInv q (s.chunks (ds.map packetBytes)).1 ∧ q.consumer = p.consumer ∧
      q.remaining = 0#32 ∧
      ((IsCrcOf (announcedCrc first) (payload ds) ∧ q.state = .STREAM_DONE ∧
          calls.map noticeOf = say p.consumer ((s.chunks (ds.map packetBytes)).2.map .entry ++ [.complete])) ∨
       (¬IsCrcOf (announcedCrc first) (payload ds) ∧ q.state = .IDLE ∧
          calls.map noticeOf = say p.consumer ((s.chunks (ds.map packetBytes)).2.map .entry ++ [.aborted]))) := by
  obtain ⟨c, hc, he⟩ := first_step p.startStream s (start_sinv p s h) rfl first hf
  cases hc
  have hpos : 0 < ds.length := List.length_pos_of_ne_nil hne
  rw [if_neg (by omega)] at he
  have hb := firstLength_eq first
  have hlt := (StreamParser.firstLength first).isLt
  obtain ⟨c, q, calls, hc, g1, g2, g3, g4, g5, g6⟩ := data_run
    { p.startStream with remaining := BitVec.ofNat 32 (announcedLength first), crc := some (Crc.reset.loadReference (announcedCrc first)), state := .WAITING_DATA_PACKET }
    s ⟨h.text, by intro h; cases h⟩ rfl ds hd hne (by
      show (BitVec.ofNat 32 (announcedLength first)).toNat = _
      rw [BitVec.toNat_ofNat]
      omega)
  cases hc
  refine ⟨q, calls, ?_, g2, g4, g3, ?_⟩
  · simp only [download, streamRun, streamStep, he, g1, bind, Except.bind, List.nil_append]
  · have hv := C29_valid (payload ds) Crc.reset (announcedCrc first)
    rw [show crcFrom Crc.reset (payload ds) = crcOf (payload ds) from rfl, ← isCrcOf_iff] at hv
    by_cases hcrc : IsCrcOf (announcedCrc first) (payload ds)
    · rw [hv.mpr hcrc] at g5 g6
      exact Or.inl ⟨hcrc, g5, g6⟩
    · have : ((payload ds).foldl Crc.updateCrc (Crc.reset.loadReference (announcedCrc first))).isCrcValid = false := by
        rw [← Bool.not_eq_true]
        exact fun e => hcrc (hv.mp e)
      rw [this] at g5 g6
      exact Or.inr ⟨hcrc, g5, g6⟩

theorem feed_packets (p : StreamParser) (s : Reader) (h : SInv p s) (ds : List Data) :
    feed p.text (ds.map packetBuffer) = .ok (conc (s.chunks (ds.map packetBytes)).1 p.consumer [],
      toEvents p.consumer (s.chunks (ds.map packetBytes)).2) := by
  have := feed_conc s h.text.fits p.consumer (ds.map packetBuffer) (by
    intro i hi
    obtain ⟨d, -, rfl⟩ := List.mem_map.mp hi
    exact ofc.ok (by simp [packetBytes]) (by decide))
  rw [← h.text.eq] at this
  rw [this]
  have e : (ds.map packetBuffer).map content = ds.map packetBytes := by
    rw [List.map_map]
    exact List.map_congr_left (fun d _ => ofc.content_eq ..)
  rw [e]

/-- C40. On every reachable parser: a started stream with its first packet and all its data packets tells the consumer what the text
parser makes of the payload, and then exactly one end notification, complete exactly if the announced checksum is that of the payload. -/
theorem C40_download (p : StreamParser) (hp : ReachableStream p) (first : Data) (hf : IsFirst first) (ds : List Data)
    (hd : AreData ds) (hne : ds ≠ []) (hlen : announcedLength first = 8 * ds.length) :
    ∃ q calls evs fin, streamRun p (download first ds) = .ok (q, calls) ∧ feed p.text (ds.map packetBuffer) = .ok (q.text, evs) ∧
      calls.map noticeOf = (evs.map told).map (fun x => (x.1, .entry x.2)) ++ say p.consumer [fin] ∧
      (IsCrcOf (announcedCrc first) (payload ds) → fin = .complete ∧ q.state = .STREAM_DONE) ∧
      (¬IsCrcOf (announcedCrc first) (payload ds) → fin = .aborted ∧ q.state = .IDLE) ∧ q.consumer = p.consumer := by
  obtain ⟨s, h⟩ := reachable_sinv p hp
  obtain ⟨q, calls, h1, h2, h3, -, h4⟩ := download_run p s h first hf ds hd hne hlen
  have hfeed := feed_packets p s h ds
  rw [← h3, ← h2.text.eq, h3] at hfeed
  have htold : ∀ es : List Entry, (((toEvents p.consumer es).map told).map (fun x => (x.1, Notice.entry x.2))) =
      say p.consumer (es.map .entry) := by
    intro es
    rw [told_toEvents]
    cases p.consumer with
    | none => rfl
    | some n => simp [tell, say]
  rcases h4 with ⟨g1, g2, g3⟩ | ⟨g1, g2, g3⟩
  · exact ⟨q, calls, _, .complete, h1, hfeed, by rw [g3, htold, say_append], fun _ => ⟨rfl, g2⟩, fun h => absurd g1 h, h3⟩
  · exact ⟨q, calls, _, .aborted, h1, hfeed, by rw [g3, htold, say_append], fun h => absurd h g1, fun _ => ⟨rfl, g2⟩, h3⟩

/-- The text of a stream whose payload is a document. -/
theorem document_chunks (p : StreamParser) (s : Reader) (h : SInv p s) (hl : p.text.state = .LOOKING_FOR_KEY_OR_SECTION_START)
    (ds : List Data) (items : List Item) (tail : Tail) (hw : ∀ i ∈ items, i.WellFormed) (hfit : ∀ i ∈ items, i.Fits)
    (htw : tail.WellFormed) (htf : tail.Fits) (hpay : payload ds = render items ++ tail.render) :
    s.chunks (ds.map packetBytes) = (tail.reader (sectionOf (content p.text.sect) items), entriesOf (content p.text.sect) items) := by
  have hm : s.mode = .look := by rw [h.text.eq] at hl; exact (stateOf_look s p.consumer []).mp hl
  have hs := tidy_ready s h.text.tidy hm
  have hc : content p.text.sect = s.sect := by rw [h.text.eq, content_sect]
  obtain ⟨k, h1, h2⟩ := chunks_bytes s h.text.honest (by rw [hm]; simp) (ds.map packetBytes) (by
    intro d hd
    obtain ⟨i, -, rfl⟩ := List.mem_map.mp hd
    simp [packetBytes, maxChunk])
  have hb : s.bytes (ds.map packetBytes).flatten = (tail.reader (sectionOf s.sect items), entriesOf s.sect items) := by
    rw [payload_flatten, hpay, hs, Reader.bytes_append, ready_render _ items hw hfit]
    simp only [ready_tail _ tail htw htf, List.append_nil]
    rfl
  rw [hb] at h1 h2
  cases h2 (by cases tail <;> simp [Tail.reader, Reader.ready])
  rw [h1, hc]
  simp

/-- C40, in terms of the text format: the consumer is told exactly the entries of the document in the payload, then the end. -/
theorem C40_document (p : StreamParser) (hp : ReachableStream p) (hl : p.text.state = .LOOKING_FOR_KEY_OR_SECTION_START)
    (first : Data) (hf : IsFirst first) (ds : List Data) (hd : AreData ds) (hne : ds ≠ [])
    (hlen : announcedLength first = 8 * ds.length) (items : List Item) (tail : Tail) (hw : ∀ i ∈ items, i.WellFormed)
    (hfit : ∀ i ∈ items, i.Fits) (htw : tail.WellFormed) (htf : tail.Fits) (hpay : payload ds = render items ++ tail.render) :
    ∃ q calls fin, streamRun p (download first ds) = .ok (q, calls) ∧
      calls.map noticeOf = say p.consumer ((entriesOf (content p.text.sect) items).map .entry ++ [fin]) ∧
      (IsCrcOf (announcedCrc first) (payload ds) → fin = .complete ∧ q.state = .STREAM_DONE) ∧
      (¬IsCrcOf (announcedCrc first) (payload ds) → fin = .aborted ∧ q.state = .IDLE) := by
  obtain ⟨s, h⟩ := reachable_sinv p hp
  obtain ⟨q, calls, h1, h2, h3, -, h4⟩ := download_run p s h first hf ds hd hne hlen
  have hc := document_chunks p s h hl ds items tail hw hfit htw htf hpay
  rw [hc] at h4
  rcases h4 with ⟨g1, g2, g3⟩ | ⟨g1, g2, g3⟩
  · exact ⟨q, calls, .complete, h1, g3, fun _ => ⟨rfl, g2⟩, fun h => absurd g1 h⟩
  · exact ⟨q, calls, .aborted, h1, g3, fun h => absurd h g1, fun _ => ⟨rfl, g2⟩⟩

/-- C40. No end notification is given before the last data packet. -/
theorem C40_not_earlier (p : StreamParser) (hp : ReachableStream p) (first : Data) (hf : IsFirst first) (ds : List Data)
    (hd : AreData ds) (hlen : 8 * ds.length < announcedLength first) :
    ∃ q calls, streamRun p (download first ds) = .ok (q, calls) ∧ q.state = .WAITING_DATA_PACKET ∧
      ∀ n ∈ calls.map noticeOf, n.2.isEnd = false := by
  obtain ⟨s, h⟩ := reachable_sinv p hp
  obtain ⟨c, hc, he⟩ := first_step p.startStream s (start_sinv p s h) rfl first hf
  rw [if_neg (by omega)] at he
  have hb := firstLength_eq first
  have hlt := (StreamParser.firstLength first).isLt
  have key : ∀ (ds : List Data) (p : StreamParser) (s : Reader), SInv p s → p.state = .WAITING_DATA_PACKET → AreData ds →
      8 * ds.length < p.remaining.toNat →
      ∃ q calls, streamRun p (ds.map .add) = .ok (q, calls) ∧ q.state = .WAITING_DATA_PACKET ∧
        ∀ n ∈ calls.map noticeOf, n.2.isEnd = false := by
    intro ds
    induction ds with
    | nil => intro p s _ hs _ _; exact ⟨p, [], rfl, hs, by simp⟩
    | cons d ds ih =>
      intro p s h hs hd hlen
      have hdlc : d.dlc = 8#8 := BitVec.eq_of_toNat_eq (hd d (List.mem_cons_self ..))
      obtain ⟨c, q, calls, hc, h1, h2, h3, h4, h5, h6, h7, h8⟩ := data_step p s h hs d hdlc
      have hrem : q.remaining.toNat = p.remaining.toNat - 8 := by
        rw [h3, BitVec.toNat_sub]
        have := p.remaining.isLt
        rw [List.length_cons] at hlen
        simp only [BitVec.toNat_ofNat]
        omega
      rw [List.length_cons] at hlen
      have hnz : q.remaining ≠ 0#32 := by
        intro e
        rw [e, show (0#32).toNat = 0 from rfl] at hrem
        omega
      obtain ⟨r, calls', g1, g2, g3⟩ := ih q _ h2 (by rw [h6, endState, if_neg hnz]) (fun x hx => hd x (List.mem_cons_of_mem _ hx)) (by omega)
      refine ⟨r, calls ++ calls', by simp only [List.map_cons, streamRun, streamStep, h1, g1, bind, Except.bind], g2, ?_⟩
      intro n hn
      rw [List.map_append] at hn
      rcases List.mem_append.mp hn with hn | hn
      · rw [h7, endNotice, if_neg hnz, List.append_nil] at hn
        cases hcon : p.consumer with
        | none => rw [hcon] at hn; cases hn
        | some m =>
          rw [hcon] at hn
          simp only [say, List.map_map, List.mem_map] at hn
          obtain ⟨e, -, rfl⟩ := hn
          rfl
      · exact g3 n hn
  obtain ⟨q, calls, g1, g2, g3⟩ := key ds
    { p.startStream with remaining := BitVec.ofNat 32 (announcedLength first), crc := some (c.loadReference (announcedCrc first)), state := .WAITING_DATA_PACKET }
    s ⟨h.text, by intro h; cases h⟩ rfl hd (by
      show _ < (BitVec.ofNat 32 (announcedLength first)).toNat
      rw [BitVec.toNat_ofNat]
      omega)
  exact ⟨q, calls, by simp only [download, streamRun, streamStep, he, g1, bind, Except.bind, List.nil_append], g2, g3⟩

/-! ## C41 -/

/-- C41, for lengths that are multiples of eight: the stream ends with packet number n/8 (with the first packet if n is 0), with one end
notification. Missing: other lengths, for which it is false (`C41_false`, `C41_never`). -/
theorem C41_terminates_partial (p : StreamParser) (hp : ReachableStream p) (first : Data) (hf : IsFirst first) (ds : List Data)
    (hd : AreData ds) (h8 : announcedLength first % 8 = 0) (hlen : ds.length = (announcedLength first + 7) / 8) :
    ∃ q calls, streamRun p (download first ds) = .ok (q, calls) ∧ q.isProcessing = false ∧
      (∀ n, p.consumer = some n → ∃ fin es, calls.map noticeOf = es ++ [(n, fin)] ∧ fin.isEnd = true ∧ ∀ x ∈ es, x.2.isEnd = false) := by
  obtain ⟨s, h⟩ := reachable_sinv p hp
  by_cases hne : ds = []
  · subst hne
    have hz : announcedLength first = 0 := by simp at hlen; omega
    obtain ⟨c, hc, he⟩ := first_step p.startStream s (start_sinv p s h) rfl first hf
    rw [if_pos hz] at he
    refine ⟨_, _, by simp only [download, List.map_nil, streamRun, streamStep, he, bind, Except.bind, List.nil_append, List.append_nil]; rfl, rfl, ?_⟩
    intro n hn
    refine ⟨.complete, [], ?_, rfl, by simp⟩
    rw [notices_notify_complete]
    show say p.consumer _ = _
    rw [hn]
    rfl
  · obtain ⟨q, calls, h1, h2, h3, -, h4⟩ := download_run p s h first hf ds hd hne (by omega)
    refine ⟨q, calls, h1, ?_, ?_⟩
    · rcases h4 with ⟨-, g, -⟩ | ⟨-, g, -⟩ <;> simp [StreamParser.isProcessing, g]
    · intro n hn
      rcases h4 with ⟨-, -, g⟩ | ⟨-, -, g⟩
      · refine ⟨.complete, say (some n) ((s.chunks (ds.map packetBytes)).2.map .entry), by rw [g, hn, say_append]; rfl, rfl, ?_⟩
        intro x hx
        simp only [say, List.map_map, List.mem_map] at hx
        obtain ⟨e, -, rfl⟩ := hx
        rfl
      · refine ⟨.aborted, say (some n) ((s.chunks (ds.map packetBytes)).2.map .entry), by rw [g, hn, say_append]; rfl, rfl, ?_⟩
        intro x hx
        simp only [say, List.map_map, List.mem_map] at hx
        obtain ⟨e, -, rfl⟩ := hx
        rfl

/-- C41 fails for every length that is not a multiple of eight: however many data packets arrive, the stream never ends. -/
theorem C41_never (p : StreamParser) (hp : ReachableStream p) (first : Data) (hf : IsFirst first) (ds : List Data) (hd : AreData ds)
    (h8 : announcedLength first % 8 ≠ 0) :
    ∃ q calls, streamRun p (download first ds) = .ok (q, calls) ∧ q.state = .WAITING_DATA_PACKET ∧
      ∀ n ∈ calls.map noticeOf, n.2.isEnd = false := by
  obtain ⟨s, h⟩ := reachable_sinv p hp
  obtain ⟨c, hc, he⟩ := first_step p.startStream s (start_sinv p s h) rfl first hf
  rw [if_neg (by omega)] at he
  have hb := firstLength_eq first
  have hlt := (StreamParser.firstLength first).isLt
  obtain ⟨q, calls, g1, g2, g3⟩ := data_never
    { p.startStream with remaining := BitVec.ofNat 32 (announcedLength first), crc := some (c.loadReference (announcedCrc first)), state := .WAITING_DATA_PACKET }
    s ⟨h.text, by intro h; cases h⟩ rfl ds hd (by
      show (BitVec.ofNat 32 (announcedLength first)).toNat % 8 ≠ 0
      rw [BitVec.toNat_ofNat]
      omega)
  exact ⟨q, calls, by simp only [download, streamRun, streamStep, he, g1, bind, Except.bind, List.nil_append], g2, g3⟩

/-! ## C42 -/

/-- C42. The payload received differs from the payload sent within 16 consecutive bits: aborted, and not complete. -/
theorem C42_burst (p : StreamParser) (hp : ReachableStream p) (first : Data) (hf : IsFirst first) (ds : List Data)
    (hd : AreData ds) (hne : ds ≠ []) (hlen : announcedLength first = 8 * ds.length) (sent : List Byte)
    (hcrc : IsCrcOf (announcedCrc first) sent) (pre w w' post : List Bool) (hm : messageBits sent = pre ++ w ++ post)
    (hm' : messageBits (payload ds) = pre ++ w' ++ post) (hw : w.length = w'.length) (h16 : w.length ≤ 16) (hdiff : w ≠ w') :
    ∃ q calls, ∃ es : List Entry, streamRun p (download first ds) = .ok (q, calls) ∧ q.state = .IDLE ∧
      calls.map noticeOf = say p.consumer (es.map .entry ++ [.aborted]) := by
  obtain ⟨s, h⟩ := reachable_sinv p hp
  obtain ⟨q, calls, h1, h2, h3, -, h4⟩ := download_run p s h first hf ds hd hne hlen
  have hno : ¬IsCrcOf (announcedCrc first) (payload ds) := by
    rw [isCrcOf_iff] at hcrc ⊢
    intro e
    exact C30_burst Crc.reset sent (payload ds) pre w w' post hm hm' hw h16 hdiff (by
      show crcOf sent = crcOf (payload ds)
      rw [hcrc, e])
  rcases h4 with ⟨g, -⟩ | ⟨-, g2, g3⟩
  · exact absurd g hno
  · exact ⟨q, calls, _, h1, g2, g3⟩

/-- C42. The payload received differs from the payload sent in an odd number of bits: aborted, and not complete. -/
theorem C42_odd (p : StreamParser) (hp : ReachableStream p) (first : Data) (hf : IsFirst first) (ds : List Data)
    (hd : AreData ds) (hne : ds ≠ []) (hlen : announcedLength first = 8 * ds.length) (sent : List Byte)
    (hcrc : IsCrcOf (announcedCrc first) sent) (hsent : sent.length = 8 * ds.length)
    (hodd : (difference (messageBits sent) (messageBits (payload ds))).count true % 2 = 1) :
    ∃ q calls, ∃ es : List Entry, streamRun p (download first ds) = .ok (q, calls) ∧ q.state = .IDLE ∧
      calls.map noticeOf = say p.consumer (es.map .entry ++ [.aborted]) := by
  obtain ⟨s, h⟩ := reachable_sinv p hp
  obtain ⟨q, calls, h1, h2, h3, -, h4⟩ := download_run p s h first hf ds hd hne hlen
  have hno : ¬IsCrcOf (announcedCrc first) (payload ds) := by
    rw [isCrcOf_iff] at hcrc ⊢
    intro e
    exact C31_odd Crc.reset sent (payload ds) (by rw [hsent, payload_length]) hodd (by
      show crcOf sent = crcOf (payload ds)
      rw [hcrc, e])
  rcases h4 with ⟨g, -⟩ | ⟨-, g2, g3⟩
  · exact absurd g hno
  · exact ⟨q, calls, _, h1, g2, g3⟩

/-! ## C43 -/

/-- What a stream of length zero does: complete, whatever the checksum. -/
theorem zero_length (p : StreamParser) (hp : ReachableStream p) (first : Data) (hf : IsFirst first) (hz : announcedLength first = 0) :
    ∃ q calls, streamRun p (download first []) = .ok (q, calls) ∧ q.state = .STREAM_DONE ∧
      calls.map noticeOf = say p.consumer [.complete] := by
  obtain ⟨s, h⟩ := reachable_sinv p hp
  obtain ⟨c, hc, he⟩ := first_step p.startStream s (start_sinv p s h) rfl first hf
  rw [if_pos hz] at he
  refine ⟨_, _, by simp only [download, List.map_nil, streamRun, streamStep, he, bind, Except.bind, List.nil_append, List.append_nil]; rfl, rfl, ?_⟩
  rw [notices_notify_complete]
  rfl

/-- The checksum of the empty message is 0xFFFF. -/
theorem crc_empty (c : U16) : IsCrcOf c [] ↔ c = 0xFFFF#16 := by
  rw [isCrcOf_iff]
  constructor
  · intro h; rw [← h]; rfl
  · intro h; rw [h]; rfl

/-- C43, for a right checksum. Missing: wrong checksums, for which it is false (`C43_false`). -/
theorem C43_zero_partial (p : StreamParser) (hp : ReachableStream p) (first : Data) (hf : IsFirst first)
    (hz : announcedLength first = 0) (hcrc : announcedCrc first = 0xFFFF#16) :
    ∃ q calls, streamRun p (download first []) = .ok (q, calls) ∧ IsCrcOf (announcedCrc first) (payload []) ∧
      calls.map noticeOf = say p.consumer [.complete] := by
  obtain ⟨q, calls, h1, -, h3⟩ := zero_length p hp first hf hz
  exact ⟨q, calls, h1, (crc_empty _).mpr hcrc, h3⟩

/-- C43 is false: with every wrong checksum a stream of length zero is reported complete, on every reachable parser with a consumer. -/
theorem C43_false (p : StreamParser) (hp : ReachableStream p) (n : Nat) (hn : p.consumer = some n) (first : Data) (hf : IsFirst first)
    (hz : announcedLength first = 0) (hcrc : announcedCrc first ≠ 0xFFFF#16) :
    ∃ q calls, streamRun p (download first []) = .ok (q, calls) ∧ ¬IsCrcOf (announcedCrc first) (payload []) ∧
      calls.map noticeOf = [(n, .complete)] := by
  obtain ⟨q, calls, h1, -, h3⟩ := zero_length p hp first hf hz
  exact ⟨q, calls, h1, fun h => hcrc ((crc_empty _).mp h), by rw [h3, hn]; rfl⟩

/-! ## C44 -/

/-- The number of `startStream()` in a history. -/
def starts : List StreamOp → Nat
  | [] => 0
  | op :: ops => op.starts + starts ops

/-- The number of end notifications. -/
def ends (calls : List ConsumerCall) : Nat := ((calls.map noticeOf).filter (fun n => n.2.isEnd)).length

theorem ends_bound (p : StreamParser) (s : Reader) (h : SInv p s) (ops : List StreamOp) (q : StreamParser) (calls : List ConsumerCall)
    (hr : streamRun p ops = .ok (q, calls)) :
    ends calls + (if q.isProcessing then 1 else 0) ≤ (if p.isProcessing then 1 else 0) + starts ops := by
  induction ops generalizing p s calls with
  | nil =>
    cases hr
    simp [ends, starts]
  | cons op ops ih =>
    obtain ⟨r, calls1, s', h1, h2, -, h4, -⟩ := stream_step p s h op
    simp only [streamRun, h1, bind, Except.bind] at hr
    cases hr2 : streamRun r ops with
    | error e => rw [hr2] at hr; cases hr
    | ok v =>
      rw [hr2] at hr
      cases hr
      have h5 := ih r s' h2 v.2 hr2
      have h6 : ends (calls1 ++ v.2) = ends calls1 + ends v.2 := by simp [ends]
      rw [h6, starts]
      rw [show ((calls1.map noticeOf).filter (fun n => n.2.isEnd)).length = ends calls1 from rfl] at h4
      omega

/-- C44. In every history from the constructor there are at most as many end notifications as started streams; a stream still in
progress has not had one. -/
theorem C44_one_end (a b c d : List Byte) (ha : a.length = 31) (hb : b.length = 11) (hc : c.length = 11) (hd : d.length = 26)
    (t : TextParser) (ht : TextParser.construct a b c d = .ok t) (ops : List StreamOp) :
    ∃ q calls, streamRun (StreamParser.construct t) ops = .ok (q, calls) ∧
      ends calls + (if q.isProcessing then 1 else 0) ≤ starts ops := by
  have h := construct_sinv a b c d ha hb hc hd t ht
  obtain ⟨q, calls, s, h1, h2⟩ := stream_run _ _ h ops
  refine ⟨q, calls, h1, ?_⟩
  have := ends_bound _ _ h ops q calls h1
  simpa [StreamParser.construct, StreamParser.isProcessing] using this

/-- C44. Between two starts: at most one end notification, none if the parser was not processing and nothing is started. -/
theorem C44_between (p : StreamParser) (hp : ReachableStream p) (ops : List StreamOp) (hns : starts ops = 0) :
    ∃ q calls, streamRun p ops = .ok (q, calls) ∧ ends calls ≤ 1 ∧ (p.isProcessing = false → ends calls = 0) := by
  obtain ⟨s, h⟩ := reachable_sinv p hp
  obtain ⟨q, calls, s', h1, h2⟩ := stream_run _ _ h ops
  have := ends_bound _ _ h ops q calls h1
  refine ⟨q, calls, h1, ?_, ?_⟩
  · have hle : (if p.isProcessing then 1 else 0) ≤ 1 := by split <;> omega
    omega
  · intro hp
    rw [hp] at this
    simp at this
    omega

/-- C44. Every call of every reachable parser goes to the consumer attached at that time; while idle or done there is none. -/
theorem C44_attached (p : StreamParser) (hp : ReachableStream p) (op : StreamOp) :
    ∃ q calls, streamStep p op = .ok (q, calls) ∧ ReachableStream q ∧ (∀ x ∈ calls, p.consumer = some x.consumer) ∧
      (p.state = .IDLE ∨ p.state = .STREAM_DONE → calls = []) := by
  obtain ⟨s, h⟩ := reachable_sinv p hp
  obtain ⟨q, calls, s', h1, h2, h3, -, h5⟩ := stream_step p s h op
  refine ⟨q, calls, h1, reachable_step p hp [op] q calls (by simp only [streamRun, h1, bind, Except.bind, List.append_nil]), h3, ?_⟩
  intro hs
  apply h5
  rcases hs with hs | hs <;> simp [StreamParser.isProcessing, hs]

/-! ## C45 -/

/-- Calls that do not start a stream leave a parser that is not processing not processing, and cause no call on a consumer. -/
theorem quiet_run (p : StreamParser) (s : Reader) (h : SInv p s) (hp : p.isProcessing = false) (ops : List StreamOp)
    (hns : starts ops = 0) : ∃ q, streamRun p ops = .ok (q, []) ∧ q.isProcessing = false := by
  induction ops generalizing p s with
  | nil => exact ⟨p, rfl, hp⟩
  | cons op ops ih =>
    obtain ⟨r, calls1, s', h1, h2, -, h4, h5⟩ := stream_step p s h op
    have hns2 : starts ops = 0 ∧ op.starts = 0 := by
      rw [starts] at hns
      omega
    rw [h5 hp] at h1 h4
    have hr : r.isProcessing = false := by
      rw [hns2.2, hp] at h4
      cases hrp : r.isProcessing with
      | false => rfl
      | true => rw [hrp] at h4; simp at h4
    obtain ⟨q, g1, g2⟩ := ih r s' h2 hr hns2.1
    exact ⟨q, by simp only [streamRun, h1, g1, bind, Except.bind, List.nil_append], g2⟩

/-- C45. A packet that cannot be: one aborted notification, the consumer is detached, the parser is idle, and nothing that follows
reaches any consumer until a stream is started. -/
theorem C45_malformed (p : StreamParser) (hp : ReachableStream p) (d : Data)
    (hbad : (p.state = .WAITING_FIRST_PACKET ∧ ¬IsFirst d) ∨ (p.state = .WAITING_DATA_PACKET ∧ d.dlc.toNat ≠ 8)) :
    ∃ q calls, p.addMessage d = .ok (q, calls) ∧ calls.map noticeOf = say p.consumer [.aborted] ∧ q.consumer = none ∧
      q.state = .IDLE ∧ ∀ ops, starts ops = 0 → ∃ r, streamRun q ops = .ok (r, []) := by
  obtain ⟨s, h⟩ := reachable_sinv p hp
  have hr : p.addMessage d = p.reset := by
    rcases hbad with ⟨hs, hd⟩ | ⟨hs, hd⟩
    · exact first_bad p hs d hd
    · exact data_bad p hs d (by intro e; rw [e] at hd; exact hd rfl)
  have hw : p.state = .WAITING_FIRST_PACKET ∨ p.state = .WAITING_DATA_PACKET := by
    rcases hbad with ⟨hs, -⟩ | ⟨hs, -⟩
    · exact Or.inl hs
    · exact Or.inr hs
  refine ⟨_, _, by rw [hr, reset_sinv p s h], ?_, rfl, rfl, ?_⟩
  · rw [StreamParser.resetNotify, if_pos hw, notices_notify_aborted]
  · intro ops hns
    obtain ⟨r, h1, -⟩ := quiet_run cleared _ cleared_sinv rfl ops hns
    exact ⟨r, h1⟩

/-- C45. In particular every packet is ignored completely. -/
theorem C45_ignored (p : StreamParser) (hs : p.state = .IDLE ∨ p.state = .STREAM_DONE) (ds : List Data) :
    streamRun p (ds.map .add) = .ok (p, []) := by
  induction ds with
  | nil => rfl
  | cons d ds ih => simp only [List.map_cons, streamRun, streamStep, quiet_step p hs d, ih, bind, Except.bind, List.nil_append]

/-! ## C39 -/

/-- Same except that the checksum of one, not yet needed, was never initialised. -/
def SameBehaviour (q f : StreamParser) : Prop := q = f ∨ (q.state = .IDLE ∧ f = { q with crc := none })

theorem same_step (q f : StreamParser) (s : Reader) (hq : SInv q s) (h : SameBehaviour q f) (op : StreamOp) :
    ∃ q' f' calls s', streamStep q op = .ok (q', calls) ∧ streamStep f op = .ok (f', calls) ∧ SInv q' s' ∧ SameBehaviour q' f' := by
  rcases h with rfl | ⟨hs, rfl⟩
  · obtain ⟨q', calls, s', h1, h2, -⟩ := stream_step q s hq op
    exact ⟨q', q', calls, s', h1, h1, h2, Or.inl rfl⟩
  · cases op with
    | start => exact ⟨_, _, _, s, rfl, rfl, start_sinv q s hq, Or.inl rfl⟩
    | attach c => exact ⟨_, _, _, s, rfl, rfl, attach_sinv q s hq c, Or.inr ⟨hs, rfl⟩⟩
    | add d =>
      exact ⟨q, { q with crc := none }, [], s, quiet_step q (Or.inl hs) d, quiet_step { q with crc := none } (Or.inl hs) d, hq, Or.inr ⟨hs, rfl⟩⟩
    | reset =>
      refine ⟨_, _, _, _, reset_sinv q s hq, ?_, cleared_sinv, Or.inl rfl⟩
      have := reset_sinv q s hq
      simp only [streamStep, StreamParser.reset, StreamParser.resetClear] at this ⊢
      exact this

/-- C39. After `reset` (which tells an attached consumer of a running stream that it is aborted) a stream parser makes, for every
sequence of calls, exactly the calls a new one makes, and is processing exactly when a new one is. -/
theorem C39_stream (p : StreamParser) (hp : ReachableStream p) (a b c d : List Byte) (ha : a.length = 31) (hb : b.length = 11)
    (hc : c.length = 11) (hd : d.length = 26) (t : TextParser) (ht : TextParser.construct a b c d = .ok t) :
    ∃ q calls0, p.reset = .ok (q, calls0) ∧ ∀ ops, ∃ q' f' calls, streamRun q ops = .ok (q', calls) ∧
      streamRun (StreamParser.construct t) ops = .ok (f', calls) ∧ q'.isProcessing = f'.isProcessing ∧ q'.consumer = f'.consumer ∧
      q'.text = f'.text ∧ q'.remaining = f'.remaining := by
  obtain ⟨s, h⟩ := reachable_sinv p hp
  refine ⟨_, _, reset_sinv p s h, ?_⟩
  have key : ∀ (ops : List StreamOp) (q f : StreamParser) (s : Reader), SInv q s → SameBehaviour q f →
      ∃ q' f' calls, streamRun q ops = .ok (q', calls) ∧ streamRun f ops = .ok (f', calls) ∧ SameBehaviour q' f' := by
    intro ops
    induction ops with
    | nil => intro q f s _ hs; exact ⟨q, f, [], rfl, rfl, hs⟩
    | cons op ops ih =>
      intro q f s hq hs
      obtain ⟨q1, f1, calls, s1, h1, h2, h3, h4⟩ := same_step q f s hq hs op
      obtain ⟨q2, f2, calls2, g1, g2, g3⟩ := ih q1 f1 s1 h3 h4
      exact ⟨q2, f2, calls ++ calls2, by simp only [streamRun, h1, g1, bind, Except.bind],
        by simp only [streamRun, h2, g2, bind, Except.bind], g3⟩
  intro ops
  rw [construct_rep a b c d ha hb hc hd] at ht
  cases ht
  obtain ⟨q', f', calls, h1, h2, h3⟩ := key ops cleared (StreamParser.construct (conc .start none [])) .start cleared_sinv (Or.inr ⟨rfl, rfl⟩)
  refine ⟨q', f', calls, h1, h2, ?_⟩
  rcases h3 with rfl | ⟨-, rfl⟩
  · exact ⟨rfl, rfl, rfl, rfl⟩
  · exact ⟨rfl, rfl, rfl, rfl⟩

/-! ## C13 -/

/-- C13 for the library's configuration data receiver: payloads that compare equal have the same effect. -/
theorem C13_stream (p : StreamParser) (hp : ReachableStream p) (d e : Data) (hd : d.dlc.toNat ≤ 8) (h : d.eq e = .ok true) :
    p.addMessage d = p.addMessage e := by
  obtain ⟨hl, e0, e1, e2, e3, e4, e5, e6, e7⟩ := Data.eq_bytes hd h
  obtain ⟨s, hs⟩ := reachable_sinv p hp
  have hbad : ∀ x : Data, ¬IsFirst x ↔ x.dlc.toNat ≠ 6 ∧ x.dlc.toNat ≠ 7 := by intro x; simp [IsFirst, not_or]
  cases hst : p.state with
  | IDLE => rw [quiet_step p (Or.inl hst), quiet_step p (Or.inl hst)]
  | STREAM_DONE => rw [quiet_step p (Or.inr hst), quiet_step p (Or.inr hst)]
  | WAITING_FIRST_PACKET =>
    by_cases hf : IsFirst d
    · have hf' : IsFirst e := by rw [IsFirst, ← hl]; exact hf
      have h6 : 6 ≤ d.dlc.toNat := by rcases hf with hf | hf <;> omega
      obtain ⟨c, hc, h1⟩ := first_step p s hs hst d hf
      obtain ⟨c', hc', h2⟩ := first_step p s hs hst e hf'
      rw [hc] at hc'
      cases hc'
      have hla : announcedLength d = announcedLength e := by
        simp only [announcedLength, e0 (by omega), e1 (by omega), e2 (by omega), e3 (by omega)]
      have hca : announcedCrc d = announcedCrc e := by
        simp only [announcedCrc, e4 (by omega), e5 (by omega)]
      rw [h1, h2, hla, hca]
    · have hf' : ¬IsFirst e := by rw [IsFirst, ← hl]; exact hf
      rw [first_bad p hst d hf, first_bad p hst e hf']
  | WAITING_DATA_PACKET =>
    by_cases h8 : d.dlc = 8#8
    · have h8' : e.dlc = 8#8 := by rw [← hl]; exact h8
      have hn : d.dlc.toNat = 8 := by rw [h8]; rfl
      have hb : packetBytes d = packetBytes e := by
        simp only [packetBytes, e0 (by omega), e1 (by omega), e2 (by omega), e3 (by omega), e4 (by omega), e5 (by omega), e6 (by omega),
          e7 (by omega)]
      have hok : ∀ x : Data, BufOk { mem := x.bytes, cap := 8, len := CanDataMaxLength } := by
        intro x; exact ⟨(show 8 ≤ 8 by decide), (show 8 ≤ 255 by decide), (show 8 ≤ 9 by decide)⟩
      have ht : ∀ x : Data, p.text.addText { mem := x.bytes, cap := 8, len := CanDataMaxLength } =
          .ok (conc (s.chunk (packetBytes x)).1 p.consumer [], toEvents p.consumer (s.chunk (packetBytes x)).2) := by
        intro x
        have := addText_conc s hs.text.fits p.consumer _ (hok x)
        rw [← hs.text.eq] at this
        exact this
      have hcrc : ∀ x : Data, x.bytes.take 8 = packetBytes x := fun _ => rfl
      have h88 : (8#8 : Byte).toNat = 8 := rfl
      simp only [StreamParser.addMessage, hst, StreamParser.addData, h8, h8', h88, hcrc, ht, hb]
    · have h8' : e.dlc ≠ 8#8 := by rw [← hl]; exact h8
      rw [data_bad p hst d h8, data_bad p hst e h8']

/-! ## Cases meeting the hypotheses -/

/-- A parser with consumer 3, new. -/
def exampleStream : StreamParser := { StreamParser.construct (conc .start (some 3) []) with consumer := some 3 }

theorem exampleStream_reachable : ReachableStream exampleStream :=
  ⟨List.replicate 31 5#8, List.replicate 11 5#8, List.replicate 11 5#8, List.replicate 26 5#8, conc .start none [],
    [.attach (some 3)], [], rfl, rfl, rfl, rfl, construct_rep _ _ _ _ rfl rfl rfl rfl, rfl⟩

/-- The data packets of "[a]\n .k=v\n" padded with zeros to 16 bytes. -/
def examplePackets : List Data :=
  [{ dlc := 8#8, b0 := ch '[', b1 := ch 'a', b2 := ch ']', b3 := ch '\n', b4 := ch ' ', b5 := ch '.', b6 := ch 'k', b7 := ch '=' },
   { dlc := 8#8, b0 := ch 'v', b1 := ch '\n' }]

/-- A first packet announcing 16 bytes with a checksum. -/
def exampleFirst (crc : U16) : Data :=
  { dlc := 6#8, b3 := 16#8, b4 := (crc >>> 8).truncate 8, b5 := crc.truncate 8 }

theorem examplePackets_crc : IsCrcOf 27377#16 (payload examplePackets) := (isCrcOf_iff _ _).mpr (by decide +kernel)

/-- State and notices after a run without fault. -/
def outcome (r : Res (StreamParser × List ConsumerCall)) : Option (StreamState × Option Nat × List (Nat × Notice)) :=
  match r with
  | .ok (q, calls) => some (q.state, q.consumer, calls.map noticeOf)
  | .error _ => none

/-- C40: a stream that is complete, with what the consumer is told. -/
theorem C40_case :
    IsFirst (exampleFirst 27377#16) ∧ AreData examplePackets ∧ announcedLength (exampleFirst 27377#16) = 8 * examplePackets.length ∧
      announcedCrc (exampleFirst 27377#16) = 27377#16 ∧ IsCrcOf 27377#16 (payload examplePackets) ∧
      payload examplePackets = render [.section [] (str "a"), .entry (str "\n ") (str "k") (str "v")] ++
        Tail.render (.filler (List.replicate 6 0#8)) ∧
      exampleStream.text.state = .LOOKING_FOR_KEY_OR_SECTION_START ∧
      outcome (streamRun exampleStream (download (exampleFirst 27377#16) examplePackets)) =
        some (.STREAM_DONE, some 3, [(3, .entry { sect := str "a", key := str "k", value := str "v" }), (3, .complete)]) := by
  refine ⟨Or.inl rfl, ?_, by decide, by decide, examplePackets_crc, by decide, rfl, ?_⟩
  · intro d hd
    simp only [examplePackets, List.mem_cons, List.mem_nil_iff, or_false] at hd
    rcases hd with rfl | rfl <;> rfl
  · decide +kernel

/-- C42: the same stream with one corrupted byte. -/
theorem C42_case :
    outcome (streamRun exampleStream (download (exampleFirst 27377#16)
        [{ dlc := 8#8, b0 := ch '[', b1 := ch 'b', b2 := ch ']', b3 := ch '\n', b4 := ch ' ', b5 := ch '.', b6 := ch 'k', b7 := ch '=' },
         { dlc := 8#8, b0 := ch 'v', b1 := ch '\n' }])) =
      some (.IDLE, some 3, [(3, .entry { sect := str "b", key := str "k", value := str "v" }), (3, .aborted)]) := by
  decide +kernel

/-- C41 is false: a stream announcing 12 bytes has not ended after 2 packets. -/
theorem C41_false :
    announcedLength { dlc := 6#8, b3 := 12#8 } = 12 ∧ (12 + 7) / 8 = examplePackets.length ∧
    outcome (streamRun exampleStream (download { dlc := 6#8, b3 := 12#8 } examplePackets)) =
      some (.WAITING_DATA_PACKET, some 3, [(3, .entry { sect := str "a", key := str "k", value := str "v" })]) :=
  ⟨rfl, rfl, by decide +kernel⟩

/-- C43: a first packet announcing nothing, with a wrong checksum. -/
theorem C43_case : IsFirst { dlc := 6#8 } ∧ announcedLength { dlc := 6#8 } = 0 ∧ announcedCrc { dlc := 6#8 } ≠ 0xFFFF#16 ∧
    announcedCrc { dlc := 6#8, b4 := 0xFF#8, b5 := 0xFF#8 } = 0xFFFF#16 ∧ exampleStream.consumer = some 3 :=
  ⟨Or.inl rfl, rfl, by decide, by decide, rfl⟩

/-- C44, C45: a stream started, interrupted by a malformed packet, then ignored packets. -/
theorem C45_case :
    outcome (streamRun exampleStream [.start, .add (exampleFirst 0#16), .add { dlc := 3#8 }, .add { dlc := 8#8 }, .reset]) =
      some (.IDLE, none, [(3, .aborted)]) := by
  decide +kernel

end RR32
