import Verif.Props.Uninit
import Verif.Props.Send
import Verif.Props.Engine
import Verif.Props.EngineList

/-!
# Station, stream parser and consumers together

A frame of a stream that arrives at a station with a registered parser is a packet for that parser; a run of such frames is a run of the
parser, and the calls of that run are made on the consumers.
-/

set_option autoImplicit false

namespace RR32

open Spec

/-! ## Notices as calls -/

/-- A notice as a call on a consumer: section, key and value in buffers of their sizes. -/
def callOf (x : Nat × Notice) : ConsumerCall :=
  { consumer := x.1,
    action := match x.2 with
      | .entry e => .consume (ofc 11 e.sect) (ofc 11 e.key) (ofc 26 e.value)
      | .complete => .complete
      | .aborted => .aborted }

/-- Calls whose buffers hold exactly what `noticeOf` says. -/
def Canonical (calls : List ConsumerCall) : Prop := ∀ x ∈ calls, callOf (noticeOf x) = x

theorem canonical_nil : Canonical [] := by intro x h; cases h

theorem canonical_append {a b : List ConsumerCall} (ha : Canonical a) (hb : Canonical b) : Canonical (a ++ b) := by
  intro x h
  rcases List.mem_append.mp h with h | h
  · exact ha x h
  · exact hb x h

theorem canonical_eq {calls : List ConsumerCall} (h : Canonical calls) {l : List (Nat × Notice)} (hl : calls.map noticeOf = l) :
    calls = l.map callOf := by
  subst hl
  rw [List.map_map]
  have : ∀ x ∈ calls, (callOf ∘ noticeOf) x = id x := fun x hx => h x hx
  rw [List.map_congr_left this, List.map_id]

theorem canonical_notify (p : StreamParser) (a : ConsumerAction) (ha : a = .complete ∨ a = .aborted) : Canonical (p.notify a) := by
  intro x hx
  unfold StreamParser.notify at hx
  split at hx
  · cases hx
  · rw [List.mem_singleton.mp hx]
    rcases ha with rfl | rfl <;> rfl

theorem canonical_resetNotify (p : StreamParser) : Canonical p.resetNotify := by
  unfold StreamParser.resetNotify
  split
  · exact canonical_notify p _ (Or.inr rfl)
  · exact canonical_nil

theorem canonical_events (c : Option Nat) (es : List Entry) : Canonical ((toEvents c es).map StreamParser.ofParseEvent) := by
  intro x hx
  obtain ⟨y, hy, rfl⟩ := List.mem_map.mp hx
  simp only [toEvents, List.mem_flatMap] at hy
  obtain ⟨e, -, hy⟩ := hy
  cases c with
  | none => cases hy
  | some n =>
    rw [List.mem_singleton.mp hy]
    simp [callOf, noticeOf, StreamParser.ofParseEvent, ofc.content_eq]

theorem canonical_add (p : StreamParser) (s : Reader) (h : SInv p s) (d : Data) (q : StreamParser) (calls : List ConsumerCall)
    (hq : p.addMessage d = .ok (q, calls)) : Canonical calls := by
  have hreset : p.reset = .ok (q, calls) → Canonical calls := by
    intro e
    rw [reset_sinv p s h] at e
    cases e
    exact canonical_resetNotify p
  cases hs : p.state with
  | IDLE => rw [quiet_step p (Or.inl hs)] at hq; cases hq; exact canonical_nil
  | STREAM_DONE => rw [quiet_step p (Or.inr hs)] at hq; cases hq; exact canonical_nil
  | WAITING_FIRST_PACKET =>
    by_cases hd : IsFirst d
    · obtain ⟨c, -, he⟩ := first_step p s h hs d hd
      rw [he] at hq
      split at hq
      · cases hq; exact canonical_notify _ _ (Or.inl rfl)
      · cases hq; exact canonical_nil
    · rw [first_bad p hs d hd] at hq
      exact hreset hq
  | WAITING_DATA_PACKET =>
    by_cases hd : d.dlc = 8#8
    · simp only [StreamParser.addMessage, hs, StreamParser.addData] at hq
      rw [if_neg (by simp [hd])] at hq
      obtain ⟨c, -, hq⟩ := bind_ok hq
      obtain ⟨⟨t, evs⟩, ht, hq⟩ := bind_ok hq
      have hb : BufOk { mem := d.bytes, cap := d.dlc.toNat, len := CanDataMaxLength } := by
        rw [hd]; exact ⟨(show 8 ≤ 8 by decide), (show 8 ≤ 255 by decide), (show 8 ≤ 9 by decide)⟩
      have ht' := addText_conc s h.text.fits p.consumer _ hb
      rw [← h.text.eq] at ht'
      rw [ht'] at ht
      injection ht with ht
      injection ht with ht1 ht2
      subst ht2
      have hev := canonical_events p.consumer (s.chunk (content { mem := d.bytes, cap := d.dlc.toNat, len := CanDataMaxLength })).2
      simp only at hq
      split at hq
      · split at hq
        · cases hq; exact canonical_append hev (canonical_notify _ _ (Or.inl rfl))
        · cases hq; exact canonical_append hev (canonical_notify _ _ (Or.inr rfl))
      · cases hq; exact hev
    · rw [data_bad p hs d hd] at hq
      exact hreset hq

theorem canonical_run (p : StreamParser) (s : Reader) (h : SInv p s) (ops : List StreamOp) (q : StreamParser) (calls : List ConsumerCall)
    (hq : streamRun p ops = .ok (q, calls)) : Canonical calls := by
  induction ops generalizing p s q calls with
  | nil => cases hq; exact canonical_nil
  | cons op ops ih =>
    obtain ⟨p1, c1, s1, h1, h2, -⟩ := stream_step p s h op
    simp only [streamRun, h1, bind, Except.bind] at hq
    cases hr : streamRun p1 ops with
    | error e => rw [hr] at hq; cases hq
    | ok v =>
      rw [hr] at hq
      cases hq
      refine canonical_append ?_ (ih p1 s1 h2 v.1 v.2 hr)
      cases op with
      | start => cases h1; exact canonical_nil
      | attach c => cases h1; exact canonical_nil
      | reset =>
        simp only [streamStep, reset_sinv p s h] at h1
        cases h1
        exact canonical_resetNotify p
      | add d => exact canonical_add p s h d p1 c1 h1

/-! ## Calls on consumers do not touch the parsers -/

theorem World.callConsumer_setParser (w : World) (n : Nat) (p : StreamParser) (c : ConsumerCall) :
    (w.setParser n p).callConsumer c = (w.callConsumer c).map (fun v => v.setParser n p) := by
  unfold World.callConsumer
  simp only [World.setParser, World.logAll]
  cases w.consumers c.consumer with
  | app => rfl
  | loco l =>
    cases c.action with
    | consume a b d =>
      simp only [bind]
      cases l.consumeConfigData w.pf w.engines a b d <;> rfl
    | complete =>
      simp only [bind]
      cases l.setStreamComplete w.engines <;> rfl
    | aborted =>
      simp only [bind]
      cases l.setStreamAborted <;> rfl
  | list l =>
    cases c.action with
    | consume a b d =>
      simp only [bind]
      cases l.consumeConfigData w.pf a b d <;> rfl
    | complete =>
      simp only [bind]
      cases l.setStreamComplete <;> rfl
    | aborted =>
      simp only [bind]
      cases l.setStreamAborted <;> rfl

theorem World.callConsumers_nil (w : World) : w.callConsumers [] = .ok w := rfl

theorem World.callConsumers_cons (w : World) (c : ConsumerCall) (cs : List ConsumerCall) :
    w.callConsumers (c :: cs) = (w.callConsumer c).bind (fun v => v.callConsumers cs) := rfl

theorem World.callConsumers_append (w : World) (a b : List ConsumerCall) :
    w.callConsumers (a ++ b) = (w.callConsumers a).bind (fun v => v.callConsumers b) := by
  induction a generalizing w with
  | nil => rfl
  | cons c a ih =>
    simp only [List.cons_append, World.callConsumers_cons]
    cases w.callConsumer c with
    | error e => rfl
    | ok v => exact ih v

theorem World.callConsumers_setParser (w : World) (n : Nat) (p : StreamParser) (cs : List ConsumerCall) :
    (w.setParser n p).callConsumers cs = (w.callConsumers cs).map (fun v => v.setParser n p) := by
  induction cs generalizing w with
  | nil => rfl
  | cons c cs ih =>
    rw [World.callConsumers_cons, World.callConsumers_cons, World.callConsumer_setParser]
    cases w.callConsumer c with
    | error e => rfl
    | ok v => exact ih v

theorem World.setParser_same (w : World) (n : Nat) : w.setParser n (w.parsers n) = w := by
  have : (fun m => if m = n then w.parsers n else w.parsers m) = w.parsers := by
    funext m
    split
    · next h => rw [h]
    · rfl
  simp only [World.setParser, this]

theorem World.setParser_twice (w : World) (n : Nat) (p q : StreamParser) : (w.setParser n p).setParser n q = w.setParser n q := by
  simp only [World.setParser]
  congr 1
  funext m
  split <;> rfl

theorem World.setParser_get (w : World) (n : Nat) (p : StreamParser) : (w.setParser n p).parsers n = p := by
  simp [World.setParser]

/-! ## Frames of a stream -/

/-- A frame of a configuration data stream. -/
structure IsStreamFrame (f : CanFrame) : Prop where
  command : commandOf f = 0x21
  dlc : f.data.dlc.toNat ≤ 9

/-- A stream frame at a station with a registered parser is a packet for the parser. -/
theorem World.handle_eq (w : World) (n : Nat) (hn : w.station.callbacks.configData = some n) (f : CanFrame) (hf : IsStreamFrame f) :
    w.step (.handle f) = w.parserAdd n f.data := by
  have hneed : needsEngine f = false := by simp [needsEngine, hf.command]
  have hp : w.processing = (w.parsers n).isProcessing := by simp [World.processing, hn]
  simp only [World.step, World.stationCalls, HandlePacket_eq, hneed]
  rw [if_neg (by simp), if_neg (by have := hf.dlc; omega)]
  have hr : reaction w.station.callbacks w.processing f = if w.processing then [.cfgAdd n f.data] else [] := by
    simp only [reaction, hf.command, toward, hn]
    rfl
  rw [hr]
  cases hpr : w.processing with
  | true =>
    simp only [if_true, bind, Except.bind, World.runCalls, List.foldlM_cons, List.foldlM_nil, World.runCall]
    cases w.parserAdd n f.data <;> rfl
  | false =>
    rw [hp] at hpr
    have hs : (w.parsers n).state = .IDLE ∨ (w.parsers n).state = .STREAM_DONE := by
      cases h : (w.parsers n).state <;> simp [StreamParser.isProcessing, h] at hpr ⊢
    simp only [World.parserAdd, quiet_step _ hs, bind, Except.bind, World.runCalls, List.foldlM_nil, World.callConsumers, World.setParser_same]
    rfl

theorem World.run_cons (w : World) (op : Op) (ops : List Op) : w.run (op :: ops) = (w.step op).bind (fun v => v.run ops) := rfl

theorem World.run_append (w : World) (a b : List Op) : w.run (a ++ b) = (w.run a).bind (fun v => v.run b) := by
  induction a generalizing w with
  | nil => rfl
  | cons c a ih =>
    simp only [List.cons_append, World.run_cons]
    cases w.step c with
    | error e => rfl
    | ok v => exact ih v

/-- A run of stream frames at a station with a registered parser is a run of the parser, followed by its calls on consumers. -/
theorem World.frames_run (fs : List CanFrame) (w : World) (n : Nat) (hn : w.station.callbacks.configData = some n) (s : Reader)
    (h : SInv (w.parsers n) s) (hf : ∀ f ∈ fs, IsStreamFrame f) (q : StreamParser) (calls : List ConsumerCall)
    (hr : streamRun (w.parsers n) (fs.map (fun f => .add f.data)) = .ok (q, calls)) :
    w.run (fs.map .handle) = (w.setParser n q).callConsumers calls := by
  induction fs generalizing w s q calls with
  | nil =>
    cases hr
    rw [World.setParser_same]
    rfl
  | cons f fs ih =>
    obtain ⟨p1, c1, s1, h1, h2, -⟩ := stream_step (w.parsers n) s h (.add f.data)
    have h1' : (w.parsers n).addMessage f.data = .ok (p1, c1) := h1
    simp only [List.map_cons, streamRun, h1, bind, Except.bind] at hr
    cases hrr : streamRun p1 (fs.map (fun f => .add f.data)) with
    | error e => rw [hrr] at hr; cases hr
    | ok v =>
      rw [hrr] at hr
      injection hr with hr
      injection hr with hr1 hr2
      subst hr1
      subst hr2
      rw [List.map_cons, World.run_cons, World.handle_eq w n hn f (hf f (List.mem_cons_self ..))]
      simp only [World.parserAdd, h1', bind, Except.bind]
      rw [World.callConsumers_append, ← World.setParser_twice w n p1 v.1, World.callConsumers_setParser (w.setParser n p1)]
      cases hc : (w.setParser n p1).callConsumers c1 with
      | error e => rfl
      | ok u =>
        obtain ⟨⟨hst, -⟩, hpar⟩ := World.callConsumers_quiet _ _ _ hc
        have hu : u.parsers n = p1 := by rw [hpar, World.setParser_get]
        exact ih u (by rw [hst]; exact hn) s1 (by rw [hu]; exact h2) (fun x hx => hf x (List.mem_cons_of_mem _ hx)) v.1 v.2
          (by rw [hu]; exact hrr)

/-! ## What a run of calls does to the consumers -/

/-- The calls that a receiver of these notices sees. -/
def calls (c : Nat) (l : List Notice) : List ConsumerCall := (say (some c) l).map callOf

theorem calls_cons (c : Nat) (x : Notice) (l : List Notice) : calls c (x :: l) = callOf (c, x) :: calls c l := rfl

theorem calls_append (c : Nat) (a b : List Notice) : calls c (a ++ b) = calls c a ++ calls c b := by
  simp [calls, say]

/-- A consumer of the application. -/
theorem World.app_calls (w : World) (c : Nat) (h : w.consumers c = .app) (l : List Notice) :
    w.callConsumers (calls c l) = .ok (w.logAll ((calls c l).map .consumer)) := by
  induction l generalizing w with
  | nil => simp [calls, say, World.callConsumers_nil, World.logAll]
  | cons x l ih =>
    have h1 : w.callConsumer (callOf (c, x)) = .ok (w.logAll [.consumer (callOf (c, x))]) := by
      unfold World.callConsumer
      simp only [show (w.logAll [.consumer (callOf (c, x))]).consumers (callOf (c, x)).consumer = .app from h]
    rw [calls_cons, World.callConsumers_cons, h1]
    show World.callConsumers _ _ = _
    rw [ih (w.logAll [.consumer (callOf (c, x))]) h]
    simp [World.logAll]

/-- The entries of a stream at an engine consumer with a selected engine. -/
theorem World.loco_entries (w : World) (c : Nat) (l : LocoConsumer) (h : w.consumers c = .loco l) (n : Nat) (hl : l.currentEngine = .obj n)
    (es : List Entry) :
    w.callConsumers (calls c (es.map .entry)) =
      (consumeEntries w.pf (w.engines n) es).map (fun k => { w with
        engines := w.engines.set n k, log := w.log ++ (calls c (es.map .entry)).map .consumer }) := by
  have hsame : ∀ es : Engines, es.set n (es n) = es := by
    intro es
    funext m
    simp only [Engines.set]
    split
    · next h => rw [h]
    · rfl
  induction es generalizing w with
  | nil => simp [calls, say, World.callConsumers_nil, consumeEntries, Except.map, hsame]
  | cons e es ih =>
    have h1 : w.callConsumer (callOf (c, .entry e)) = (consumeEntry w.pf (w.engines n) e).map
        (fun k => { w with engines := w.engines.set n k, log := w.log ++ [.consumer (callOf (c, .entry e))] }) := by
      unfold World.callConsumer
      simp only [show (w.logAll [.consumer (callOf (c, .entry e))]).consumers (callOf (c, .entry e)).consumer = .loco l from h]
      show (do let es ← l.consumeConfigData w.pf w.engines (ofc 11 e.sect) (ofc 11 e.key) (ofc 26 e.value); _) = _
      simp only [LocoConsumer.consumeConfigData, hl, Ptr.read, bind, Except.bind]
      rw [consumeEntry]
      cases LocoConsumer.consumeOn w.pf (w.engines n) (ofc 11 e.sect) (ofc 11 e.key) (ofc 26 e.value) <;> rfl
    rw [List.map_cons, calls_cons, World.callConsumers_cons, h1, consumeEntries]
    cases consumeEntry w.pf (w.engines n) e with
    | error x => rfl
    | ok k =>
      simp only [Except.map, Except.bind, bind]
      rw [ih { w with engines := w.engines.set n k, log := w.log ++ [.consumer (callOf (c, .entry e))] } h]
      have hk : (w.engines.set n k) n = k := by simp [Engines.set]
      have htwice : ∀ k', (w.engines.set n k).set n k' = w.engines.set n k' := by
        intro k'
        funext m
        simp only [Engines.set]
        split <;> rfl
      simp only [hk, htwice]
      cases consumeEntries w.pf k es with
      | error x => rfl
      | ok k' => simp [Except.map]

/-- The entries of a stream at a list. -/
theorem World.list_entries (w : World) (c : Nat) (l : LocoListConsumer) (h : w.consumers c = .list l) (es : List Entry) :
    w.callConsumers (calls c (es.map .entry)) =
      (listEntries w.pf l es).map (fun k => { w.setConsumer c (.list k) with log := w.log ++ (calls c (es.map .entry)).map .consumer }) := by
  induction es generalizing w l with
  | nil =>
    have : (fun m => if m = c then Consumer.list l else w.consumers m) = w.consumers := by
      funext m
      split
      · next e => rw [e, h]
      · rfl
    simp [calls, say, World.callConsumers_nil, listEntries, Except.map, World.setConsumer, this]
  | cons e es ih =>
    have h1 : w.callConsumer (callOf (c, .entry e)) = (listEntry w.pf l e).map
        (fun k => { w.setConsumer c (.list k) with log := w.log ++ [.consumer (callOf (c, .entry e))] }) := by
      unfold World.callConsumer
      simp only [show (w.logAll [.consumer (callOf (c, .entry e))]).consumers (callOf (c, .entry e)).consumer = .list l from h]
      show (do let es ← l.consumeConfigData w.pf (ofc 11 e.sect) (ofc 11 e.key) (ofc 26 e.value); _) = _
      rw [listEntry]
      simp only [bind]
      cases l.consumeConfigData w.pf (ofc 11 e.sect) (ofc 11 e.key) (ofc 26 e.value) <;> rfl
    rw [List.map_cons, calls_cons, World.callConsumers_cons, h1, listEntries]
    cases listEntry w.pf l e with
    | error x => rfl
    | ok k =>
      simp only [Except.map, Except.bind, bind]
      rw [ih { w.setConsumer c (.list k) with log := w.log ++ [.consumer (callOf (c, .entry e))] } k (by simp [World.setConsumer])]
      simp only [World.setConsumer]
      cases listEntries w.pf k es with
      | error x => rfl
      | ok k' =>
        simp only [Except.map]
        congr 1
        simp only [List.map_cons, List.append_assoc, List.singleton_append, World.mk.injEq, true_and, and_true]
        funext m
        split <;> rfl

end RR32
