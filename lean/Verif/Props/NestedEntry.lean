import Verif.Proofs.NestedChain
import Verif.Props.Nested

/-!
# Calling back from inside an entry

C77: a consumer that aborts the request while it is given an entry is given no further entry.
C78: a consumer that makes a new request for the same parser while it is given an entry gets a wrong answer.
-/

set_option autoImplicit false

namespace RR32

open Spec

namespace World

/-- The registered parser `n` is in the middle of a stream for the application's consumer `c`; its text parser has read what puts a reader
into state `s`. -/
structure InStream (w : World) (n c : Nat) (s : Reader) : Prop where
  registered : w.station.callbacks.configData = some n
  waiting : (w.parsers n).state = .WAITING_DATA_PACKET
  consumer : (w.parsers n).consumer = some c
  app : w.consumers c = .app
  inv : SInv (w.parsers n) s

/-- What `addMessage` does after the text of a data packet has been parsed. -/
def dataEnd (P : Program) (k : World → Op → Run World) (w : World) (n : Nat) : Run World :=
  if (w.parsers n).remaining = 0#32 then do
    let crc ← Run.lift (w.parsers n).getCrc
    if crc.isCrcValid then
      let w := w.setParser n { w.parsers n with state := .STREAM_DONE }
      tellConsumers P k w ((w.parsers n).notify .complete)
    else
      let w := w.setParser n { w.parsers n with state := .IDLE }
      tellConsumers P k w ((w.parsers n).notify .aborted)
  else pure w

/-- The consumer `c` does nothing about the entries before the last one. -/
def QuietBefore (P : Program) (w : World) (c : Nat) (es : List Entry) : Prop :=
  ∀ a e b u, es = a ++ e :: b → u.log = w.log ++ (a ++ [e]).map (fun e => .consumer (entryCall c e)) → P u (.consumer (entryCall c e)) = []

/-- A data packet up to one of its entries. The packet is at an end after the entry if the consumer has reset the parser. -/
theorem parserDataN_cut (P : Program) (k : World → Op → Run World) (w : World) (n c : Nat) (s : Reader) (h : InStream w n c s) (d : Data)
    (hd : d.dlc = 8#8) (es1 : List Entry) (e : Entry) (es2 : List Entry) (he : (s.chunk (packetBytes d)).2 = es1 ++ e :: es2) (hq : QuietBefore P w c es1) :
    ∃ s0 b rem crc, s0.Fits ∧ b.length ≤ 31 ∧
      ∀ x, callConsumerN P k ((w.logAll (es1.map (fun e => LogEntry.consumer (entryCall c e)))).setParser n { w.parsers n with remaining := rem, crc := some crc, text := conc s0 (some c) b }) (entryCall c e) = pure x →
        Wiped n x → parserDataN P k w n d = dataEnd P k x n := by
  have hcont : content { mem := d.bytes, cap := d.dlc.toNat, len := CanDataMaxLength } = packetBytes d := rfl
  have hok : BufOk { mem := d.bytes, cap := d.dlc.toNat, len := CanDataMaxLength } := by
    rw [hd]; exact ⟨Nat.le_refl 8, by simp, (show 8 ≤ 9 by decide)⟩
  obtain ⟨c0, hc0⟩ : ∃ c0, (w.parsers n).crc = some c0 := by
    cases hc : (w.parsers n).crc with
    | some c0 => exact ⟨c0, rfl⟩
    | none => have := (h.inv.crc hc).1; rw [h.waiting] at this; cases this
  have hg : (w.parsers n).getCrc = .ok c0 := by unfold StreamParser.getCrc; rw [hc0]
  generalize hw1 : w.setParser n { w.parsers n with remaining := (w.parsers n).remaining - d.dlc.zeroExtend 32, crc := some ((d.bytes.take d.dlc.toNat).foldl Crc.updateCrc c0) } = w1
  have ht : w1.text n = conc s (some c) [] := by
    rw [← hw1]; unfold text; rw [setParser_get]; dsimp only; rw [h.inv.text.eq, h.consumer]
  obtain ⟨s0, b, K, k1, k2, k3, k4⟩ := addTextN_skip P k n c w1 es1 e es2 (by rw [← hw1]; exact h.app) (by rw [← hw1]; exact hq) s h.inv.text.fits _ hok ht (by rw [hcont]; exact he)
  refine ⟨s0, b, (w.parsers n).remaining - d.dlc.zeroExtend 32, (d.bytes.take d.dlc.toNat).foldl Crc.updateCrc c0, k1, k2, ?_⟩
  intro x hx hwx
  unfold parserDataN
  rw [hg, lift_ok_pure, pure_bind]
  dsimp only
  rw [hw1, k3]
  have e1 : (w1.logAll (es1.map (fun e => LogEntry.consumer (entryCall c e)))).setText n (conc s0 (some c) b) = (w.logAll (es1.map (fun e => LogEntry.consumer (entryCall c e)))).setParser n { w.parsers n with remaining := (w.parsers n).remaining - d.dlc.zeroExtend 32, crc := some ((d.bytes.take d.dlc.toNat).foldl Crc.updateCrc c0), text := conc s0 (some c) b } := by
    have e2 : w1.logAll (es1.map (fun e => LogEntry.consumer (entryCall c e))) = (w.logAll (es1.map (fun e => LogEntry.consumer (entryCall c e)))).setParser n { w.parsers n with remaining := (w.parsers n).remaining - d.dlc.zeroExtend 32, crc := some ((d.bytes.take d.dlc.toNat).foldl Crc.updateCrc c0) } := by
      rw [← hw1]; rfl
    rw [e2]; unfold setText; rw [setParser_get, setParser_setParser]
  rw [e1, hx, pure_bind, k4 x hwx, pure_bind]
  rfl

theorem reset_text (s : Reader) (hs : s.Fits) (c : Option Nat) (b : List Byte) (hb : b.length ≤ 31) : (conc s c b).reset = .ok (conc .start none []) := by
  simp only [TextParser.reset, conc, bind, Except.bind]
  rw [ofc.erase hb, ofc.erase (cap := 11) hs.sect, ofc.erase (cap := 11) hs.key, ofc.erase (cap := 26) hs.value]
  rfl

/-- What aborting from inside an entry does. -/
theorem finishN_inside (P : Program) (k : World → Op → Run World) (w : World) (n c : Nat) (s : Reader) (b : List Byte) (hs : s.Fits) (hb : b.length ≤ 31)
    (hn : w.station.callbacks.configData = some n) (hw : (w.parsers n).state = .WAITING_DATA_PACKET) (hc : (w.parsers n).consumer = some c)
    (ha : w.consumers c = .app) (ht : w.text n = conc s (some c) b) (hP : ∀ u, P u (.consumer ⟨c, .aborted⟩) = []) :
    finishN P k w = pure (((w.logAll [.consumer ⟨c, .aborted⟩]).setParser n cleared).register none) := by
  unfold finishN
  rw [hn]
  dsimp only
  unfold parserResetN
  have e1 : (w.parsers n).resetNotify = [⟨c, .aborted⟩] := by
    unfold StreamParser.resetNotify
    rw [if_pos (Or.inr hw), StreamParser.notify, hc]
  have e2 : tellConsumers P k w [⟨c, .aborted⟩] = pure (w.logAll [.consumer ⟨c, .aborted⟩]) := by
    unfold tellConsumers
    rw [List.foldlM_cons, callConsumerN_app P k w _ ha]
    unfold react
    rw [hP]
    rfl
  have e3 : ((w.logAll [.consumer ⟨c, .aborted⟩]).parsers n).resetClear = .ok cleared := by
    show (w.parsers n).resetClear = _
    unfold StreamParser.resetClear
    rw [show (w.parsers n).text = conc s (some c) b from ht, reset_text s hs (some c) b hb]
    rfl
  rw [e1, e2, pure_bind, e3, lift_ok_pure, pure_bind, pure_bind]

/-! ## C77 -/

/-- C77. A consumer that aborts the request while it is given an entry, having done nothing about the entries of the packet before it, is told
that the stream was aborted, and nothing else: no further entry of the packet, and no second end of the stream. The request is over and the parser is reset, except that it says
that a stream was completed. -/
theorem C77_abort (P : Program) (depth : Nat) (w : World) (n c : Nat) (s : Reader) (h : InStream w n c s) (f : CanFrame)
    (hf : commandOf f = 0x21) (hd : f.data.dlc = 8#8) (es1 : List Entry) (e : Entry) (es2 : List Entry) (he : (s.chunk (packetBytes f.data)).2 = es1 ++ e :: es2)
    (hq : QuietBefore P w c es1)
    (hP : ∀ u, u.log = w.log ++ (es1 ++ [e]).map (fun e => .consumer (entryCall c e)) → P u (.consumer (entryCall c e)) = [.abort]) (hQ : ∀ u, P u (.consumer ⟨c, .aborted⟩) = []) :
    ∃ v, (stepN P (nested P (depth + 1)) w (.handle f)).Returns v ∧
      v.log = w.log ++ (es1 ++ [e]).map (fun e => .consumer (entryCall c e)) ++ [.consumer ⟨c, .aborted⟩] ∧
      v.station.callbacks.configData = none ∧ v.parsers n = { cleared with state := .STREAM_DONE } ∧
      (∀ m, m ≠ n → v.parsers m = w.parsers m) ∧ v.consumers = w.consumers ∧ v.engines = w.engines := by
  obtain ⟨s0, b, rem, crc, k1, k2, k3⟩ := parserDataN_cut P (nested P (depth + 1)) w n c s h f.data hd es1 e es2 he hq
  generalize hw1 : (w.logAll (es1.map (fun e => LogEntry.consumer (entryCall c e)))).setParser n { w.parsers n with remaining := rem, crc := some crc, text := conc s0 (some c) b } = w1 at k3
  have hpn : w1.parsers n = { w.parsers n with remaining := rem, crc := some crc, text := conc s0 (some c) b } := by rw [← hw1, setParser_get]
  have hl1 : w1.log ++ [.consumer (entryCall c e)] = w.log ++ (es1 ++ [e]).map (fun e => .consumer (entryCall c e)) := by
    rw [← hw1]; show (w.log ++ _) ++ [_] = _; rw [List.map_append, List.append_assoc]; rfl
  have e1 : callConsumerN P (nested P (depth + 1)) w1 (entryCall c e) =
      pure ((((w1.logAll [.consumer (entryCall c e)]).logAll [.consumer ⟨c, .aborted⟩]).setParser n cleared).register none) := by
    rw [callConsumerN_app _ _ _ _ (by rw [← hw1]; exact h.app)]
    unfold react
    rw [hP _ hl1, List.foldlM_cons]
    show (finishN P (nested P depth) _ >>= fun x => pure x) = _
    rw [bind_pure]
    refine finishN_inside P (nested P depth) (w1.logAll [.consumer (entryCall c e)]) n c s0 b k1 k2 (by rw [← hw1]; exact h.registered) ?_ ?_ (by rw [← hw1]; exact h.app) ?_ hQ
    · show (w1.parsers n).state = _; rw [hpn]; exact h.waiting
    · show (w1.parsers n).consumer = _; rw [hpn]; exact h.consumer
    · show (w1.parsers n).text = _; rw [hpn]
  generalize hx : (((w1.logAll [.consumer (entryCall c e)]).logAll [.consumer ⟨c, .aborted⟩]).setParser n cleared).register none = x at e1
  have hxn : x.parsers n = cleared := by rw [← hx]; exact setParser_get ..
  have e2 := k3 x e1 ⟨none, by show (x.parsers n).text = _; rw [hxn]; rfl⟩
  have e3 : dataEnd P (nested P (depth + 1)) x n = pure (x.setParser n { cleared with state := .STREAM_DONE }) := by
    unfold dataEnd
    rw [hxn, if_pos (show cleared.remaining = 0#32 from rfl), show cleared.getCrc = .ok Crc.reset from rfl, lift_ok_pure, pure_bind, if_pos (by decide)]
    dsimp only
    rw [setParser_get]
    rfl
  refine ⟨x.setParser n { cleared with state := .STREAM_DONE }, ?_, ?_, ?_, setParser_get .., ?_, ?_, ?_⟩
  · have hp : (w.parsers n).isProcessing = true := by unfold StreamParser.isProcessing; rw [h.waiting]; rfl
    show (runCallsN P (nested P (depth + 1)) w (w.station.HandlePacket w.processing f)).Returns _
    unfold runCallsN
    rw [handle_waiting w n h.registered hp f hf, lift_ok_pure, pure_bind, List.foldlM_cons]
    show (parserAddN P (nested P (depth + 1)) w n f.data >>= fun x => pure x).Returns _
    have hr : resets (w.parsers n) f.data = false := by unfold resets; rw [h.waiting, hd]; rfl
    rw [bind_pure, parserAddN, hr, if_neg (by decide), if_pos h.waiting, e2, e3]
    rfl
  · rw [← hx, ← hl1]; rfl
  · rw [← hx]; rfl
  · intro m hm; rw [← hx, ← hw1]; simp [setParser, register, logAll, hm]
  · rw [← hx, ← hw1]; rfl
  · rw [← hx, ← hw1]; rfl

/-- The demonstration in the middle of its stream. -/
def demoInside : World :=
  { demoWorld with station := { demoWorld.station with callbacks := { demoWorld.station.callbacks with configData := some 0 } }, parsers := fun _ => { state := .WAITING_DATA_PACKET, remaining := 16#32, text := conc .start (some 7) [], crc := some Crc.reset, consumer := some 7 } }

/-- The hypotheses of C77 and C78 hold there for the first data packet, which has two entries. -/
example : InStream demoInside 0 7 .start ∧ (Reader.start.chunk (packetBytes (packet 8#8 (str ".a=\n.b=\n")).data)).2.length = 2 ∧
    commandOf (packet 8#8 (str ".a=\n.b=\n")) = 0x21 :=
  ⟨⟨rfl, rfl, rfl, rfl, rep_start _, fun h => (by cases h)⟩, by decide +kernel, by decide +kernel⟩

/-- The demonstration with a consumer that aborts at once. -/
example : outline (runN (fun _ e => match e with | .consumer ⟨_, .consume ..⟩ => [.abort] | _ => []) 1 demoWorld demoOps) =
    some ⟨[.entry 7 (str "a") [], .aborted 7], .STREAM_DONE, none⟩ := by
  decide +kernel

/-- The demonstration with a consumer that aborts at the second entry. -/
example : outline (runN (fun w e => match e with | .consumer ⟨_, .consume ..⟩ => (if (w.log.filter (fun | .consumer _ => true | _ => false)).length = 2 then [.abort] else []) | _ => []) 1 demoWorld demoOps) =
    some ⟨[.entry 7 (str "a") [], .entry 7 (str "b") [], .aborted 7], .STREAM_DONE, none⟩ := by
  decide +kernel

/-! ## C78 -/

/-- C78. A consumer that, while it is given an entry, having done nothing about the entries of the packet before it,
requests a list and attaches a consumer to the same parser: that consumer is told at once that its stream is
complete, before any packet of the answer, and the parser does not wait for the answer. -/
theorem C78_restart (P : Program) (depth : Nat) (w : World) (n c c' : Nat) (off : Byte) (s : Reader) (h : InStream w n c s) (hc' : w.consumers c' = .app)
    (cb : Nat) (htx : w.station.callbacks.tx = some cb) (f : CanFrame)
    (hf : commandOf f = 0x21) (hd : f.data.dlc = 8#8) (es1 : List Entry) (e : Entry) (es2 : List Entry) (he : (s.chunk (packetBytes f.data)).2 = es1 ++ e :: es2)
    (hq : QuietBefore P w c es1)
    (hP : ∀ u, u.log = w.log ++ (es1 ++ [e]).map (fun e => .consumer (entryCall c e)) → P u (.consumer (entryCall c e)) = [.requestEngineList off (some n), .parserStart n (some c')])
    (hQ : ∀ u l, l ≠ .consumer (entryCall c e) → P u l = []) :
    ∃ f1 f2 v, (stepN P (nested P (depth + 1)) w (.handle f)).Returns v ∧
      v.log = w.log ++ (es1 ++ [e]).map (fun e => .consumer (entryCall c e)) ++ [.consumer ⟨c, .aborted⟩, .call (.tx cb f1), .call (.tx cb f2), .consumer ⟨c', .complete⟩] ∧
      v.station.callbacks.configData = some n ∧ (v.parsers n).state = .STREAM_DONE ∧ (v.parsers n).consumer = some c' ∧
      ∀ g, commandOf g = 0x21 → g.data.dlc.toNat ≤ 8 → v.station.HandlePacket v.processing g = .ok [] := by
  obtain ⟨s0, b, rem, crc, k1, k2, k3⟩ := parserDataN_cut P (nested P (depth + 1)) w n c s h f.data hd es1 e es2 he hq
  generalize hw1 : (w.logAll (es1.map (fun e => LogEntry.consumer (entryCall c e)))).setParser n { w.parsers n with remaining := rem, crc := some crc, text := conc s0 (some c) b } = w1 at k3
  have hpn : w1.parsers n = { w.parsers n with remaining := rem, crc := some crc, text := conc s0 (some c) b } := by rw [← hw1, setParser_get]
  have hl1 : w1.log ++ [.consumer (entryCall c e)] = w.log ++ (es1 ++ [e]).map (fun e => .consumer (entryCall c e)) := by
    rw [← hw1]; show (w.log ++ _) ++ [_] = _; rw [List.map_append, List.append_assoc]; rfl
  obtain ⟨f1, f2, hl, -⟩ := C20_request_engine_list { w.station with callbacks := { w.station.callbacks with configData := none } } cb htx off (some n)
  generalize hw2 : ((w1.logAll [.consumer (entryCall c e)]).logAll [.consumer ⟨c, .aborted⟩]).setParser n cleared = w2
  have hst : (w2.register none).station = { w.station with callbacks := { w.station.callbacks with configData := none } } := by rw [← hw2, ← hw1]; rfl
  have hfin : finishN P (nested P depth) (w1.logAll [.consumer (entryCall c e)]) = pure (w2.register none) := by
    rw [← hw2]
    refine finishN_inside P (nested P depth) (w1.logAll [.consumer (entryCall c e)]) n c s0 b k1 k2 (by rw [← hw1]; exact h.registered) ?_ ?_ (by rw [← hw1]; exact h.app) ?_ (fun u => hQ u _ ?_)
    · show (w1.parsers n).state = _; rw [hpn]; exact h.waiting
    · show (w1.parsers n).consumer = _; rw [hpn]; exact h.consumer
    · show (w1.parsers n).text = _; rw [hpn]
    · intro h; cases h
  have hw2n : w2.parsers n = cleared := by rw [← hw2]; exact setParser_get ..
  generalize hw4 : (({ w2 with station := { w.station with callbacks := { w.station.callbacks with configData := some n } } }.setParser n cleared.startStream).logAll [.call (.tx cb f1)]).logAll [.call (.tx cb f2)] = w4
  generalize hw3 : w4.setParser n (cleared.startStream.startStreamConsumer (some c')) = x
  have e1 : callConsumerN P (nested P (depth + 1)) w1 (entryCall c e) = pure x := by
    rw [callConsumerN_app _ _ _ _ (by rw [← hw1]; exact h.app)]
    unfold react
    rw [hP _ hl1]
    have hlist : nested P (depth + 1) (w1.logAll [.consumer (entryCall c e)]) (.requestEngineList off (some n)) = pure w4 := by
      show (finishN P (nested P depth) _ >>= fun w => Run.lift (w.station.RequestEngineList off (some n)) >>= fun x =>
        runCallsN P (nested P depth) { w with station := x.1 } (.ok x.2)) = _
      rw [hfin, pure_bind, hst, hl, lift_ok_pure, pure_bind]
      have tx1 : ∀ (u : World) (g : CanFrame), u.station.callbacks.tx = some cb → runCallN P (nested P depth) u (.tx cb g) = pure (u.logAll [.call (.tx cb g)]) := by
        intro u g hu
        have e5 : runCallN P (nested P depth) u (.tx cb g) = react P (nested P depth) (u.logAll [.call (.tx cb g)]) (.call (.tx cb g)) := by
          unfold runCallN
          dsimp only
          rw [hu]
          rfl
        rw [e5]
        unfold react
        rw [hQ _ (.call (.tx cb g)) (by intro h; cases h)]
        rfl
      show ([Call.cfgStart n, .tx cb f1, .tx cb f2].foldlM (runCallN P (nested P depth)) _ : Run World) = _
      rw [List.foldlM_cons]
      show ([Call.tx cb f1, .tx cb f2].foldlM (runCallN P (nested P depth)) (setParser { w2 with station := { w.station with callbacks := { w.station.callbacks with configData := some n } } } n (w2.parsers n).startStream) : Run World) = _
      rw [List.foldlM_cons, tx1 _ f1 (by exact htx), pure_bind, List.foldlM_cons, tx1 _ f2 (by exact htx), pure_bind, hw2n, ← hw4]
      rfl
    rw [List.foldlM_cons, hlist, pure_bind, List.foldlM_cons, ← hw3]
    show (pure (w4.setParser n ((w4.parsers n).startStreamConsumer (some c'))) >>= _ : Run World) = _
    rw [show w4.parsers n = cleared.startStream from by rw [← hw4]; exact setParser_get .., pure_bind]
    rfl
  have hxn : x.parsers n = cleared.startStream.startStreamConsumer (some c') := by rw [← hw3]; exact setParser_get ..
  have e2 := k3 x e1 ⟨some c', by show (x.parsers n).text = _; rw [hxn]; rfl⟩
  have e3 : dataEnd P (nested P (depth + 1)) x n =
      pure ((x.setParser n { cleared.startStream.startStreamConsumer (some c') with state := .STREAM_DONE }).logAll [.consumer ⟨c', .complete⟩]) := by
    unfold dataEnd
    rw [hxn, if_pos (show (cleared.startStream.startStreamConsumer (some c')).remaining = 0#32 from rfl),
      show (cleared.startStream.startStreamConsumer (some c')).getCrc = .ok Crc.reset from rfl, lift_ok_pure, pure_bind, if_pos (by decide)]
    dsimp only
    rw [setParser_get]
    show tellConsumers P (nested P (depth + 1)) _ [⟨c', .complete⟩] = _
    unfold tellConsumers
    rw [List.foldlM_cons, callConsumerN_app _ _ _ _ (by rw [← hw3, ← hw4, ← hw2, ← hw1]; exact hc')]
    unfold react
    rw [hQ _ _ (by intro h; cases h)]
    rfl
  refine ⟨f1, f2, (x.setParser n { cleared.startStream.startStreamConsumer (some c') with state := .STREAM_DONE }).logAll [.consumer ⟨c', .complete⟩], ?_, ?_, ?_, ?_, ?_, ?_⟩
  · have hp : (w.parsers n).isProcessing = true := by unfold StreamParser.isProcessing; rw [h.waiting]; rfl
    show (runCallsN P (nested P (depth + 1)) w (w.station.HandlePacket w.processing f)).Returns _
    unfold runCallsN
    rw [handle_waiting w n h.registered hp f hf, lift_ok_pure, pure_bind, List.foldlM_cons]
    show (parserAddN P (nested P (depth + 1)) w n f.data >>= fun x => pure x).Returns _
    have hr : resets (w.parsers n) f.data = false := by unfold resets; rw [h.waiting, hd]; rfl
    rw [bind_pure, parserAddN, hr, if_neg (by decide), if_pos h.waiting, e2, e3]
    rfl
  · rw [← hw3, ← hw4, ← hw2, ← hl1]
    show ((((w1.log ++ [_]) ++ [_]) ++ [_]) ++ [_]) ++ [_] = _
    simp only [List.append_assoc, List.cons_append, List.nil_append]
  · rw [← hw3, ← hw4]; rfl
  · show (((x.setParser n _).parsers n)).state = _; rw [setParser_get]
  · show (((x.setParser n _).parsers n)).consumer = _; rw [setParser_get]; rfl
  · intro g hg hg8
    have hpr : ((x.setParser n { cleared.startStream.startStreamConsumer (some c') with state := .STREAM_DONE }).logAll [.consumer ⟨c', .complete⟩]).processing = false := by
      unfold processing
      rw [← hw3, ← hw4]
      simp only [setParser, logAll, if_true]
      rfl
    rw [hpr, HandlePacket_eq, if_neg (by simp [needsEngine, hg]), if_neg (by simp; omega)]
    simp only [reaction, hg]
    rfl

/-- The demonstration with a consumer that requests again at once. -/
example : outline (runN (fun _ e => match e with | .consumer ⟨7, .consume ..⟩ => [.requestEngineList 2#8 (some 0), .parserStart 0 (some 8)] | _ => []) 1 demoWorld demoOps) =
    some ⟨[.entry 7 (str "a") [], .aborted 7, .complete 8], .STREAM_DONE, some 0⟩ := by
  decide +kernel

/-- C78 for another parser. A consumer that, while it is given an entry, having done nothing about the entries of
the packet before it, requests a list with another parser is told that its stream was aborted and nothing else, and the other parser waits for the answer as if the main program had made the request. -/
theorem C78_other_partial (P : Program) (depth : Nat) (w : World) (n m c c' : Nat) (hm : m ≠ n) (off : Byte) (s : Reader) (h : InStream w n c s)
    (cb : Nat) (htx : w.station.callbacks.tx = some cb) (f : CanFrame)
    (hf : commandOf f = 0x21) (hd : f.data.dlc = 8#8) (es1 : List Entry) (e : Entry) (es2 : List Entry) (he : (s.chunk (packetBytes f.data)).2 = es1 ++ e :: es2)
    (hq : QuietBefore P w c es1)
    (hP : ∀ u, u.log = w.log ++ (es1 ++ [e]).map (fun e => .consumer (entryCall c e)) → P u (.consumer (entryCall c e)) = [.requestEngineList off (some m), .parserStart m (some c')])
    (hQ : ∀ u l, l ≠ .consumer (entryCall c e) → P u l = []) :
    ∃ f1 f2 v, (stepN P (nested P (depth + 1)) w (.handle f)).Returns v ∧
      v.log = w.log ++ (es1 ++ [e]).map (fun e => .consumer (entryCall c e)) ++ [.consumer ⟨c, .aborted⟩, .call (.tx cb f1), .call (.tx cb f2)] ∧
      v.station.callbacks.configData = some m ∧ v.parsers m = (w.parsers m).startStream.startStreamConsumer (some c') ∧ v.consumers = w.consumers := by
  obtain ⟨s0, b, rem, crc, k1, k2, k3⟩ := parserDataN_cut P (nested P (depth + 1)) w n c s h f.data hd es1 e es2 he hq
  generalize hw1 : (w.logAll (es1.map (fun e => LogEntry.consumer (entryCall c e)))).setParser n { w.parsers n with remaining := rem, crc := some crc, text := conc s0 (some c) b } = w1 at k3
  have hpn : w1.parsers n = { w.parsers n with remaining := rem, crc := some crc, text := conc s0 (some c) b } := by rw [← hw1, setParser_get]
  have hl1 : w1.log ++ [.consumer (entryCall c e)] = w.log ++ (es1 ++ [e]).map (fun e => .consumer (entryCall c e)) := by
    rw [← hw1]; show (w.log ++ _) ++ [_] = _; rw [List.map_append, List.append_assoc]; rfl
  obtain ⟨f1, f2, hl, -⟩ := C20_request_engine_list { w.station with callbacks := { w.station.callbacks with configData := none } } cb htx off (some m)
  generalize hw2 : ((w1.logAll [.consumer (entryCall c e)]).logAll [.consumer ⟨c, .aborted⟩]).setParser n cleared = w2
  have hst : (w2.register none).station = { w.station with callbacks := { w.station.callbacks with configData := none } } := by rw [← hw2, ← hw1]; rfl
  have hfin : finishN P (nested P depth) (w1.logAll [.consumer (entryCall c e)]) = pure (w2.register none) := by
    rw [← hw2]
    refine finishN_inside P (nested P depth) (w1.logAll [.consumer (entryCall c e)]) n c s0 b k1 k2 (by rw [← hw1]; exact h.registered) ?_ ?_ (by rw [← hw1]; exact h.app) ?_ (fun u => hQ u _ ?_)
    · show (w1.parsers n).state = _; rw [hpn]; exact h.waiting
    · show (w1.parsers n).consumer = _; rw [hpn]; exact h.consumer
    · show (w1.parsers n).text = _; rw [hpn]
    · intro h; cases h
  have hw2n : w2.parsers n = cleared := by rw [← hw2]; exact setParser_get ..
  have hw2m : w2.parsers m = w.parsers m := by rw [← hw2, ← hw1]; simp [setParser, logAll, hm]
  generalize hw4 : (({ w2 with station := { w.station with callbacks := { w.station.callbacks with configData := some m } } }.setParser m (w.parsers m).startStream).logAll [.call (.tx cb f1)]).logAll [.call (.tx cb f2)] = w4
  generalize hw3 : w4.setParser m ((w.parsers m).startStream.startStreamConsumer (some c')) = x
  have e1 : callConsumerN P (nested P (depth + 1)) w1 (entryCall c e) = pure x := by
    rw [callConsumerN_app _ _ _ _ (by rw [← hw1]; exact h.app)]
    unfold react
    rw [hP _ hl1]
    have hlist : nested P (depth + 1) (w1.logAll [.consumer (entryCall c e)]) (.requestEngineList off (some m)) = pure w4 := by
      show (finishN P (nested P depth) _ >>= fun w => Run.lift (w.station.RequestEngineList off (some m)) >>= fun x =>
        runCallsN P (nested P depth) { w with station := x.1 } (.ok x.2)) = _
      rw [hfin, pure_bind, hst, hl, lift_ok_pure, pure_bind]
      have tx1 : ∀ (u : World) (g : CanFrame), u.station.callbacks.tx = some cb → runCallN P (nested P depth) u (.tx cb g) = pure (u.logAll [.call (.tx cb g)]) := by
        intro u g hu
        have e5 : runCallN P (nested P depth) u (.tx cb g) = react P (nested P depth) (u.logAll [.call (.tx cb g)]) (.call (.tx cb g)) := by
          unfold runCallN
          dsimp only
          rw [hu]
          rfl
        rw [e5]
        unfold react
        rw [hQ _ (.call (.tx cb g)) (by intro h; cases h)]
        rfl
      show ([Call.cfgStart m, .tx cb f1, .tx cb f2].foldlM (runCallN P (nested P depth)) _ : Run World) = _
      rw [List.foldlM_cons]
      show ([Call.tx cb f1, .tx cb f2].foldlM (runCallN P (nested P depth)) (setParser { w2 with station := { w.station with callbacks := { w.station.callbacks with configData := some m } } } m (w2.parsers m).startStream) : Run World) = _
      rw [List.foldlM_cons, tx1 _ f1 (by exact htx), pure_bind, List.foldlM_cons, tx1 _ f2 (by exact htx), pure_bind, hw2m, ← hw4]
      rfl
    rw [List.foldlM_cons, hlist, pure_bind, List.foldlM_cons, ← hw3]
    show (pure (w4.setParser m ((w4.parsers m).startStreamConsumer (some c'))) >>= _ : Run World) = _
    rw [show w4.parsers m = (w.parsers m).startStream from by rw [← hw4]; exact setParser_get .., pure_bind]
    rfl
  have hxn : x.parsers n = cleared := by rw [← hw3, ← hw4]; simp [setParser, logAll, Ne.symm hm, hw2n]
  have e2 := k3 x e1 ⟨none, by show (x.parsers n).text = _; rw [hxn]; rfl⟩
  have e3 : dataEnd P (nested P (depth + 1)) x n = pure (x.setParser n { cleared with state := .STREAM_DONE }) := by
    unfold dataEnd
    rw [hxn, if_pos (show cleared.remaining = 0#32 from rfl), show cleared.getCrc = .ok Crc.reset from rfl, lift_ok_pure, pure_bind, if_pos (by decide)]
    dsimp only
    rw [setParser_get]
    rfl
  refine ⟨f1, f2, x.setParser n { cleared with state := .STREAM_DONE }, ?_, ?_, ?_, ?_, ?_⟩
  · have hp : (w.parsers n).isProcessing = true := by unfold StreamParser.isProcessing; rw [h.waiting]; rfl
    show (runCallsN P (nested P (depth + 1)) w (w.station.HandlePacket w.processing f)).Returns _
    unfold runCallsN
    rw [handle_waiting w n h.registered hp f hf, lift_ok_pure, pure_bind, List.foldlM_cons]
    show (parserAddN P (nested P (depth + 1)) w n f.data >>= fun x => pure x).Returns _
    have hr : resets (w.parsers n) f.data = false := by unfold resets; rw [h.waiting, hd]; rfl
    rw [bind_pure, parserAddN, hr, if_neg (by decide), if_pos h.waiting, e2, e3]
    rfl
  · rw [← hw3, ← hw4, ← hw2, ← hl1]
    show (((w1.log ++ [_]) ++ [_]) ++ [_]) ++ [_] = _
    simp only [List.append_assoc, List.cons_append, List.nil_append]
  · rw [← hw3, ← hw4]; rfl
  · rw [← hw3]; simp [setParser, hm]
  · rw [← hw3, ← hw4, ← hw2, ← hw1]; rfl

/-- The demonstration with a consumer that requests with another parser. -/
example : outline (runN (fun _ e => match e with | .consumer ⟨7, .consume ..⟩ => [.requestEngineList 2#8 (some 1), .parserStart 1 (some 8)] | _ => []) 1 demoWorld
      (demoOps.take 4 ++ demoOps.drop 2)) =
    some ⟨[.entry 7 (str "a") [], .aborted 7, .entry 8 (str "a") [], .entry 8 (str "b") [], .entry 8 (str "c") [], .entry 8 (str "d") [], .aborted 8], .STREAM_DONE, some 1⟩ := by
  decide +kernel

end World

end RR32
