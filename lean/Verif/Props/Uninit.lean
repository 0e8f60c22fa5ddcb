import Verif.Proofs.Histories
import Verif.Props.Stream

/-! # C58: no field is read before it is set -/

set_option autoImplicit false

namespace RR32

open Spec

/-- The result is not a read of an indeterminate field. -/
structure Safe {α : Type} (r : Res α) : Prop where
  ne : r ≠ .error .uninitRead

theorem safe_ok {α : Type} (a : α) : Safe (.ok a : Res α) := ⟨by intro h; cases h⟩
theorem safe_null {α : Type} : Safe (.error .nullDeref : Res α) := ⟨by intro h; cases h⟩
theorem safe_oobRead {α : Type} : Safe (.error .oobRead : Res α) := ⟨by intro h; cases h⟩
theorem safe_oobWrite {α : Type} : Safe (.error .oobWrite : Res α) := ⟨by intro h; cases h⟩

theorem safe_bind {α β : Type} {x : Res α} {f : α → Res β} (hx : Safe x) (hf : ∀ a, x = .ok a → Safe (f a)) : Safe (x >>= f) := by
  cases x with
  | error e => exact ⟨fun h => hx.ne (by injection h with h; rw [h])⟩
  | ok a => exact hf a rfl

/-! ## The C library and the station -/

theorem safe_cstr (m : List Byte) : Safe (cstr m) := by
  induction m with
  | nil => exact safe_oobRead
  | cons c m ih =>
    rw [cstr]
    split
    · exact safe_ok _
    · exact safe_bind ih (fun _ _ => safe_ok _)

theorem safe_strlen (m : List Byte) : Safe (strlen m) := safe_bind (safe_cstr m) (fun _ _ => safe_ok _)

theorem safe_strncpyBytes (n : Nat) (m : List Byte) : Safe (strncpyBytes n m) := by
  induction n generalizing m with
  | zero => exact safe_ok _
  | succ n ih =>
    cases m with
    | nil => exact safe_oobRead
    | cons c m =>
      rw [strncpyBytes]
      split
      · exact safe_ok _
      · exact safe_bind (ih m) (fun _ _ => safe_ok _)

theorem safe_poke (d l : List Byte) : Safe (poke d l) := by
  unfold poke
  split
  · exact safe_ok _
  · exact safe_oobWrite

theorem safe_strncpy (d s : List Byte) (n : Nat) : Safe (strncpy d s n) := safe_bind (safe_strncpyBytes n s) (fun _ _ => safe_poke ..)

theorem safe_snprintf (d : List Byte) (n : Nat) (t : List Byte) : Safe (snprintf d n t) := safe_bind (safe_poke ..) (fun _ _ => safe_ok _)

theorem safe_strncmpEq (n : Nat) (a b : List Byte) : Safe (strncmpEq n a b) := by
  induction n generalizing a b with
  | zero => exact safe_ok _
  | succ n ih =>
    cases a with
    | nil => exact safe_oobRead
    | cons x a =>
      cases b with
      | nil => exact safe_oobRead
      | cons y b =>
        rw [strncmpEq]
        split
        · exact safe_ok _
        · split
          · exact safe_ok _
          · exact ih a b

theorem safe_skipSpace (m : List Byte) : Safe (skipSpace m) := by
  induction m with
  | nil => exact safe_oobRead
  | cons c m ih =>
    rw [skipSpace]
    split
    · exact ih
    · exact safe_ok _

theorem safe_takeSign (m : List Byte) : Safe (takeSign m) := by
  cases m with
  | nil => exact safe_oobRead
  | cons c m =>
    rw [takeSign]
    split
    · exact safe_ok _
    · split <;> exact safe_ok _

theorem safe_takeHexPrefix (m : List Byte) : Safe (takeHexPrefix m) := by
  unfold takeHexPrefix
  repeat' split
  all_goals first | exact safe_ok _ | exact safe_oobRead

theorem safe_digits (base acc : Nat) (m : List Byte) : Safe (digits base acc m) := by
  induction m generalizing acc with
  | nil => exact safe_oobRead
  | cons c m ih =>
    unfold digits
    repeat' split
    all_goals first | exact safe_ok _ | exact ih _

theorem safe_strtoul16 (pf : Platform) (m : List Byte) : Safe (strtoul16 pf m) := by
  unfold strtoul16
  exact safe_bind (safe_skipSpace _) (fun _ _ => safe_bind (safe_takeSign _) (fun _ _ => safe_bind (safe_takeHexPrefix _) (fun _ _ =>
    safe_bind (safe_digits ..) (fun _ _ => safe_ok _))))

theorem safe_strtol10 (pf : Platform) (m : List Byte) : Safe (strtol10 pf m) := by
  unfold strtol10
  exact safe_bind (safe_skipSpace _) (fun _ _ => safe_bind (safe_takeSign _) (fun _ _ => safe_bind (safe_digits ..) (fun _ _ => safe_ok _)))

theorem safe_txSend (s : Station) (f : CanFrame) : Safe (s.txSend f) := by
  unfold Station.txSend
  split
  · exact safe_null
  · exact safe_ok _

theorem safe_handle (s : Station) (b : Bool) (f : CanFrame) : Safe (s.HandlePacket b f) := by
  rw [HandlePacket_eq]
  split
  · exact safe_null
  · split
    · exact safe_oobRead
    · exact safe_ok _

theorem safe_allFunctions (s : Station) (n : Nat) (f : CanFrame) (i : Byte) : Safe (s.allFunctionsLoop f n i) := by
  induction n generalizing f i with
  | zero => exact safe_ok _
  | succ n ih => exact safe_bind (safe_txSend ..) (fun _ _ => safe_bind (ih ..) (fun _ _ => safe_ok _))

theorem safe_requestEngineList (s : Station) (o : Byte) (p : Option Nat) : Safe (s.RequestEngineList o p) := by
  unfold Station.RequestEngineList
  refine safe_bind (safe_strncpy ..) (fun _ _ => safe_bind (safe_snprintf ..) (fun _ _ => ?_))
  simp only
  split
  · exact safe_bind (safe_txSend ..) (fun _ _ => safe_bind (safe_txSend ..) (fun _ _ => safe_ok _))
  · exact safe_ok _

theorem safe_requestEngine (s : Station) (b : Bool) (i : ShortInfo) (p : Option Nat) : Safe (s.RequestEngine b i p) := by
  unfold Station.RequestEngine
  split
  · exact safe_ok _
  · split
    · exact safe_ok _
    · refine safe_bind (safe_strncpy ..) (fun _ _ => safe_bind (safe_txSend ..) (fun _ _ => safe_bind (safe_strlen _) (fun _ _ =>
        safe_bind (safe_strncpy ..) (fun _ _ => safe_bind (safe_txSend ..) (fun _ _ => safe_bind ?_ (fun _ _ => safe_bind (safe_txSend ..) (fun _ _ =>
          safe_ok _)))))))
      split
      · exact safe_bind (safe_strncpy ..) (fun _ _ => safe_ok _)
      · exact safe_ok _

/-! ## Consumers -/

/-- The fields of the consumer that the library reads have been set. -/
def Consumer.Initialised : Consumer → Prop
  | .loco l => l.currentEngine ≠ .uninit ∧ l.streamEndCallback ≠ .uninit
  | .list l => l.streamEndCallback ≠ .uninit
  | .app => True

theorem safe_read {p : Ptr} (h : p ≠ .uninit) : Safe p.read := by
  cases p with
  | uninit => exact absurd rfl h
  | null => exact safe_ok _
  | obj n => exact safe_ok _

theorem safe_print (l : Locomotive) : Safe l.print := by
  have hi : Safe l.info.print := by
    unfold ShortInfo.print
    split
    · exact safe_ok _
    · exact safe_bind (safe_cstr _) (fun _ _ => safe_ok _)
  unfold Locomotive.print
  refine safe_bind hi (fun _ _ => ?_)
  split
  · exact safe_bind (safe_cstr _) (fun _ _ => safe_ok _)
  · exact safe_ok _

theorem safe_consumeOn (pf : Platform) (e : Locomotive) (s k v : BufferManager) : Safe (LocoConsumer.consumeOn pf e s k v) := by
  unfold LocoConsumer.consumeOn
  refine safe_bind (safe_strncmpEq ..) (fun b _ => ?_)
  split
  · refine safe_bind (safe_strncmpEq ..) (fun b _ => ?_)
    split
    · exact safe_bind (safe_strtoul16 ..) (fun _ _ => safe_ok _)
    · refine safe_bind (safe_strncmpEq ..) (fun b _ => ?_)
      split
      · exact safe_bind (safe_strncpy ..) (fun _ _ => safe_ok _)
      · refine safe_bind (safe_strncmpEq ..) (fun b _ => ?_)
        split
        · exact safe_bind (safe_strtoul16 ..) (fun _ _ => safe_ok _)
        · exact safe_ok _
  · exact safe_ok _

theorem safe_consumeList (pf : Platform) (l : LocoListConsumer) (s k v : BufferManager) : Safe (l.consumeConfigData pf s k v) := by
  unfold LocoListConsumer.consumeConfigData
  refine safe_bind (safe_strncmpEq ..) (fun b _ => ?_)
  split
  · split
    · exact safe_ok _
    · exact safe_bind (safe_cstr _) (fun _ _ => safe_bind (safe_bind (safe_strncpy ..) (fun _ _ => safe_ok _)) (fun _ _ => safe_ok _))
  · refine safe_bind (safe_strncmpEq ..) (fun b _ => ?_)
    split
    · refine safe_bind (safe_strncmpEq ..) (fun b _ => ?_)
      split
      · exact safe_bind (safe_bind (safe_strtol10 ..) (fun _ _ => safe_ok _)) (fun _ _ => safe_ok _)
      · exact safe_ok _
    · exact safe_bind (safe_cstr _) (fun _ _ => safe_ok _)

theorem callConsumer_safe (w : World) (c : ConsumerCall) (h : (w.consumers c.consumer).Initialised) : Safe (w.callConsumer c) := by
  unfold World.callConsumer
  simp only [show (w.logAll [.consumer c]).consumers = w.consumers from rfl]
  cases hc : w.consumers c.consumer with
  | app => exact safe_ok _
  | loco l =>
    rw [hc] at h
    cases c.action with
    | consume s k v =>
      refine safe_bind (safe_bind (safe_read h.1) (fun r _ => ?_)) (fun _ _ => safe_ok _)
      cases r with
      | none => exact safe_ok _
      | some n => exact safe_bind (safe_consumeOn ..) (fun _ _ => safe_ok _)
    | complete =>
      refine safe_bind (safe_bind (safe_read h.1) (fun r _ => ?_)) (fun _ _ => safe_ok _)
      cases r with
      | none => exact safe_ok _
      | some n => exact safe_bind (safe_print _) (fun _ _ => safe_bind (safe_read h.2) (fun _ _ => safe_ok _))
    | aborted => exact safe_bind (safe_bind (safe_read h.2) (fun _ _ => safe_ok _)) (fun _ _ => safe_ok _)
  | list l =>
    rw [hc] at h
    cases c.action with
    | consume s k v => exact safe_bind (safe_consumeList ..) (fun _ _ => safe_ok _)
    | complete => exact safe_bind (safe_bind (safe_read h) (fun _ _ => safe_ok _)) (fun _ _ => safe_ok _)
    | aborted => exact safe_bind (safe_bind (safe_read h) (fun _ _ => safe_ok _)) (fun _ _ => safe_ok _)

/-- Initialised consumers stay so. -/
def KeepsInit (w w' : World) : Prop := ∀ c, (w.consumers c).Initialised → (w'.consumers c).Initialised

theorem setConsumer_init (w : World) (n : Nat) (x : Consumer) (h : (w.consumers n).Initialised → x.Initialised) : KeepsInit w (w.setConsumer n x) := by
  intro c hc
  simp only [World.setConsumer]
  split
  · next e => rw [e] at hc; exact h hc
  · exact hc

theorem list_callback {pf : Platform} {l l' : LocoListConsumer} {s k v : BufferManager} (h : l.consumeConfigData pf s k v = .ok l') :
    l'.streamEndCallback = l.streamEndCallback := by
  unfold LocoListConsumer.consumeConfigData at h
  obtain ⟨b1, -, h⟩ := bind_ok h
  cases b1 with
  | true =>
    simp only [if_true] at h
    split at h
    · cases h; rfl
    · obtain ⟨-, -, h⟩ := bind_ok h
      obtain ⟨i, -, h⟩ := bind_ok h
      cases h; rfl
  | false =>
    obtain ⟨b2, -, h⟩ := bind_ok h
    cases b2 with
    | true =>
      obtain ⟨b3, -, h⟩ := bind_ok h
      cases b3 with
      | true => obtain ⟨v, -, h⟩ := bind_ok h; cases h; rfl
      | false => cases h; rfl
    | false => obtain ⟨-, -, h⟩ := bind_ok h; cases h; rfl

theorem callConsumer_init {w w' : World} {c : ConsumerCall} (h : w.callConsumer c = .ok w') : KeepsInit w w' := by
  rcases World.callConsumer_cases h with ⟨l, s, k, v, es, h1, h2, h3, rfl⟩ | ⟨l, es, ends, h1, h2, h3, rfl⟩ | ⟨l, ends, h1, h2, h3, rfl⟩ |
    ⟨l, s, k, v, l', h1, h2, h3, rfl⟩ | ⟨l, l', ends, h1, h2, h3, rfl⟩ | ⟨l, l', ends, h1, h2, h3, rfl⟩ | ⟨h1, rfl⟩
  · exact fun _ h => h
  · exact fun _ h => h
  · exact fun _ h => h
  · refine setConsumer_init (w.logAll [.consumer c]) _ _ (fun hi => ?_)
    change (w.consumers c.consumer).Initialised at hi
    rw [h1] at hi
    show l'.streamEndCallback ≠ _
    rw [list_callback h3]
    exact hi
  · refine setConsumer_init (w.logAll [.consumer c]) _ _ (fun hi => ?_)
    change (w.consumers c.consumer).Initialised at hi
    rw [h1] at hi
    unfold LocoListConsumer.setStreamComplete at h3
    obtain ⟨cb, -, h3⟩ := bind_ok h3
    cases h3
    exact hi
  · refine setConsumer_init (w.logAll [.consumer c]) _ _ (fun hi => ?_)
    change (w.consumers c.consumer).Initialised at hi
    rw [h1] at hi
    unfold LocoListConsumer.setStreamAborted at h3
    obtain ⟨cb, -, h3⟩ := bind_ok h3
    cases h3
    exact hi
  · exact fun _ h => h

/-! ## The program -/

/-- Every parser is one that a history of calls can lead to, and every consumer attached to a parser has been initialised. -/
structure Sound (w : World) : Prop where
  parsers : ∀ n, ∃ s, SInv (w.parsers n) s
  attached : ∀ n c, (w.parsers n).consumer = some c → (w.consumers c).Initialised

theorem sound_setParser {w : World} (h : Sound w) (n : Nat) (p : StreamParser) (s : Reader) (hp : SInv p s)
    (hc : ∀ c, p.consumer = some c → (w.consumers c).Initialised) : Sound (w.setParser n p) := by
  refine ⟨fun m => ?_, fun m c => ?_⟩
  · simp only [World.setParser]
    split
    · exact ⟨s, hp⟩
    · exact h.parsers m
  · simp only [World.setParser]
    split
    · exact hc c
    · exact h.attached m c

theorem sound_consumers {w w' : World} (h : Sound w) (hp : w'.parsers = w.parsers) (hc : KeepsInit w w') : Sound w' :=
  ⟨by rw [hp]; exact h.parsers, fun n c hn => hc c (h.attached n c (by rw [← hp]; exact hn))⟩

/-- The parser after a packet has the same consumer as before, or none. -/
theorem add_consumer (p : StreamParser) (s : Reader) (h : SInv p s) (d : Data) (q : StreamParser) (calls : List ConsumerCall)
    (hq : p.addMessage d = .ok (q, calls)) : q.consumer = p.consumer ∨ q.consumer = none := by
  have hres : p.reset = .ok (q, calls) → q.consumer = none := by
    intro e
    rw [reset_sinv p s h] at e
    cases e
    rfl
  cases hs : p.state with
  | IDLE => rw [quiet_step p (Or.inl hs)] at hq; cases hq; exact Or.inl rfl
  | STREAM_DONE => rw [quiet_step p (Or.inr hs)] at hq; cases hq; exact Or.inl rfl
  | WAITING_FIRST_PACKET =>
    by_cases hd : IsFirst d
    · obtain ⟨c, -, he⟩ := first_step p s h hs d hd
      rw [he] at hq
      split at hq <;> (cases hq; exact Or.inl rfl)
    · rw [first_bad p hs d hd] at hq
      exact Or.inr (hres hq)
  | WAITING_DATA_PACKET =>
    by_cases hd : d.dlc = 8#8
    · obtain ⟨c, q'', calls'', -, g1, -, -, -, g5, -⟩ := data_step p s h hs d hd
      rw [g1] at hq
      cases hq
      exact Or.inl g5
    · rw [data_bad p hs d hd] at hq
      exact Or.inr (hres hq)

theorem calls_safe (w : World) (h : Sound w) (cs : List ConsumerCall) (hc : ∀ x ∈ cs, (w.consumers x.consumer).Initialised) :
    Safe (w.callConsumers cs) ∧ ∀ w', w.callConsumers cs = .ok w' → Sound w' ∧ KeepsInit w w' := by
  induction cs generalizing w with
  | nil => exact ⟨safe_ok _, fun w' e => by cases e; exact ⟨h, fun _ h => h⟩⟩
  | cons c cs ih =>
    have h1 := callConsumer_safe w c (hc c (List.mem_cons_self ..))
    cases hr : w.callConsumer c with
    | error e =>
      have : w.callConsumers (c :: cs) = .error e := by simp [World.callConsumers, List.foldlM_cons, hr, bind, Except.bind]
      rw [this]
      rw [hr] at h1
      exact ⟨⟨fun e' => h1.ne (by injection e' with e'; rw [e'])⟩, fun w' e => by cases e⟩
    | ok v =>
      have : w.callConsumers (c :: cs) = v.callConsumers cs := by simp [World.callConsumers, List.foldlM_cons, hr, bind, Except.bind]
      rw [this]
      have hk := callConsumer_init hr
      have hv : Sound v := sound_consumers h (World.callConsumer_quiet w v c hr).2 hk
      obtain ⟨g1, g2⟩ := ih v hv (fun x hx => hk _ (hc x (List.mem_cons_of_mem _ hx)))
      exact ⟨g1, fun w' e => ⟨(g2 w' e).1, fun c hc => (g2 w' e).2 c (hk c hc)⟩⟩

/-- A step of a parser object that is one of the four of a stream parser. -/
theorem parser_safe (w : World) (h : Sound w) (n : Nat) (op : StreamOp) (hop : op = .reset ∨ ∃ d, op = .add d) :
    Safe (do let (p, calls) ← streamStep (w.parsers n) op; (w.setParser n p).callConsumers calls) ∧
    ∀ w', (do let (p, calls) ← streamStep (w.parsers n) op; (w.setParser n p).callConsumers calls) = .ok w' → Sound w' := by
  obtain ⟨s, hs⟩ := h.parsers n
  obtain ⟨q, calls, s', h1, h2, h3, -⟩ := stream_step (w.parsers n) s hs op
  have hq : q.consumer = (w.parsers n).consumer ∨ q.consumer = none := by
    rcases hop with rfl | ⟨d, rfl⟩
    · right
      simp only [streamStep, reset_sinv _ s hs] at h1
      cases h1
      rfl
    · exact add_consumer _ s hs d q calls h1
  have hv : Sound (w.setParser n q) := sound_setParser h n q s' h2 (fun c hc => by
    rcases hq with hq | hq
    · exact h.attached n c (hq ▸ hc)
    · rw [hq] at hc; cases hc)
  obtain ⟨g1, g2⟩ := calls_safe (w.setParser n q) hv calls (fun x hx => h.attached n _ (h3 x hx))
  rw [h1]
  exact ⟨g1, fun w' e => (g2 w' e).1⟩

theorem runCall_safe (w : World) (h : Sound w) (c : Call) : Safe (w.runCall c) ∧ ∀ w', w.runCall c = .ok w' → Sound w' := by
  cases c with
  | cfgStart n =>
    obtain ⟨s, hs⟩ := h.parsers n
    refine ⟨safe_ok _, fun w' e => ?_⟩
    cases e
    exact sound_setParser h n _ s (start_sinv _ s hs) (fun c hc => h.attached n c hc)
  | cfgAdd n d => exact parser_safe w h n (.add d) (Or.inr ⟨d, rfl⟩)
  | cfgReset n => exact parser_safe w h n .reset (Or.inl rfl)
  | _ => exact ⟨safe_ok _, fun w' e => by cases e; exact ⟨h.parsers, h.attached⟩⟩

theorem runCalls_safe (w : World) (h : Sound w) (cs : List Call) : Safe (w.runCalls cs) ∧ ∀ w', w.runCalls cs = .ok w' → Sound w' := by
  induction cs generalizing w with
  | nil => exact ⟨safe_ok _, fun w' e => by cases e; exact h⟩
  | cons c cs ih =>
    obtain ⟨h1, h2⟩ := runCall_safe w h c
    cases hr : w.runCall c with
    | error e =>
      have : w.runCalls (c :: cs) = .error e := by simp [World.runCalls, List.foldlM_cons, hr, bind, Except.bind]
      rw [this]
      rw [hr] at h1
      exact ⟨⟨fun e' => h1.ne (by injection e' with e'; rw [e'])⟩, fun w' e => by cases e⟩
    | ok v =>
      have : w.runCalls (c :: cs) = v.runCalls cs := by simp [World.runCalls, List.foldlM_cons, hr, bind, Except.bind]
      rw [this]
      exact ih v (h2 v hr)

theorem stationCalls_safe (w : World) (h : Sound w) (r : Res (List Call)) (hr : Safe r) :
    Safe (w.stationCalls r) ∧ ∀ w', w.stationCalls r = .ok w' → Sound w' := by
  refine ⟨safe_bind hr (fun cs _ => (runCalls_safe w h cs).1), fun w' e => ?_⟩
  obtain ⟨cs, -, e⟩ := bind_ok e
  exact (runCalls_safe w h cs).2 w' e

theorem stationUpdate_safe (w : World) (h : Sound w) (r : Res (Station × List Call)) (hr : Safe r) :
    Safe (w.stationUpdate r) ∧ ∀ w', w.stationUpdate r = .ok w' → Sound w' := by
  have hs : ∀ s, Sound { w with station := s } := fun s => ⟨h.parsers, h.attached⟩
  refine ⟨safe_bind hr (fun x _ => (runCalls_safe _ (hs _) _).1), fun w' e => ?_⟩
  obtain ⟨x, -, e⟩ := bind_ok e
  exact (runCalls_safe _ (hs _) _).2 w' e

/-- The rule an application has to keep: only initialised consumers are attached to parsers. -/
def Allowed (w : World) : Op → Prop
  | .parserStart _ (some c) => (w.consumers c).Initialised
  | _ => True

/-- C58, one call: no field is read before it is set, and the state afterwards is again one where that is so. -/
theorem C58_step (w : World) (h : Sound w) (op : Op) (ho : Allowed w op) : Safe (w.step op) ∧ ∀ w', w.step op = .ok w' → Sound w' := by
  have upd : ∀ (n : Nat) (x : Consumer), ((w.consumers n).Initialised → x.Initialised) →
      Safe (.ok (w.setConsumer n x) : Res World) ∧ ∀ w', (.ok (w.setConsumer n x) : Res World) = .ok w' → Sound w' :=
    fun n x hx => ⟨safe_ok _, fun w' e => by cases e; exact sound_consumers h rfl (setConsumer_init w n x hx)⟩
  have same : Safe (.ok w : Res World) ∧ ∀ w', (.ok w : Res World) = .ok w' → Sound w' := ⟨safe_ok _, fun w' e => by cases e; exact h⟩
  have hptr : ∀ x : Option Nat, Ptr.ofOption x ≠ .uninit := by intro x; cases x <;> intro h <;> cases h
  cases op with
  | begin_ _ _ => exact stationUpdate_safe w h _ (safe_ok _)
  | handle _ => exact stationCalls_safe w h _ (safe_handle ..)
  | finish => exact stationUpdate_safe w h _ (safe_ok _)
  | abort => exact stationUpdate_safe w h _ (safe_ok _)
  | notifyReceived => exact stationUpdate_safe w h _ (safe_ok _)
  | requestEngine _ _ => exact stationUpdate_safe w h _ (safe_requestEngine ..)
  | requestShortInfo _ _ => exact stationUpdate_safe w h _ (safe_requestEngine ..)
  | requestEngineList _ _ => exact stationUpdate_safe w h _ (safe_requestEngineList ..)
  | requestDirection _ => exact stationCalls_safe w h _ (safe_txSend ..)
  | sendDirection e d =>
    refine stationCalls_safe w h _ ?_
    unfold Station.SendEngineDirection
    split
    · exact safe_txSend ..
    · exact safe_ok _
  | requestVelocity _ => exact stationCalls_safe w h _ (safe_txSend ..)
  | sendVelocity _ _ => exact stationCalls_safe w h _ (safe_txSend ..)
  | requestFunction _ _ => exact stationCalls_safe w h _ (safe_txSend ..)
  | requestAllFunctions _ => exact stationCalls_safe w h _ (safe_allFunctions ..)
  | sendFunction _ _ _ => exact stationCalls_safe w h _ (safe_txSend ..)
  | sendEmergencyStop _ => exact stationCalls_safe w h _ (safe_txSend ..)
  | sendStop => exact stationCalls_safe w h _ (safe_txSend ..)
  | sendGo => exact stationCalls_safe w h _ (safe_txSend ..)
  | sendAccessory _ _ _ _ => exact stationCalls_safe w h _ (safe_txSend ..)
  | sendPacket _ => exact stationCalls_safe w h _ (safe_txSend ..)
  | parserStart n c =>
    obtain ⟨s, hs⟩ := h.parsers n
    refine ⟨safe_ok _, fun w' e => ?_⟩
    cases e
    refine sound_setParser h n _ s (attach_sinv _ s hs c) (fun x hx => ?_)
    have : c = some x := hx
    subst this
    exact ho
  | parserStartStream n =>
    obtain ⟨s, hs⟩ := h.parsers n
    refine ⟨safe_ok _, fun w' e => ?_⟩
    cases e
    exact sound_setParser h n _ s (start_sinv _ s hs) (fun c hc => h.attached n c hc)
  | parserAdd n d => exact parser_safe w h n (.add d) (Or.inr ⟨d, rfl⟩)
  | parserReset n => exact parser_safe w h n .reset (Or.inl rfl)
  | setEngine c e =>
    simp only [World.step]
    split
    · next hc => exact upd _ _ (fun hi => by rw [hc] at hi; exact ⟨hptr e, hi.2⟩)
    · exact same
  | setEndCallback c cb =>
    simp only [World.step]
    split
    · next hc => exact upd _ _ (fun hi => by rw [hc] at hi; exact ⟨hi.1, hptr cb⟩)
    · exact upd _ _ (fun _ => hptr cb)
    · exact same
  | setStreamOffset c off =>
    simp only [World.step]
    split
    · next hc => exact upd _ _ (fun hi => by rw [hc] at hi; exact hi)
    · exact same
  | clearTable c =>
    simp only [World.step]
    split
    · next hc => exact upd _ _ (fun hi => by rw [hc] at hi; exact hi)
    · exact same
  | resetList c =>
    simp only [World.step]
    split
    · next hc => exact upd _ _ (fun hi => by rw [hc] at hi; exact hi)
    · exact same
  | setName e name =>
    refine ⟨safe_bind (safe_bind (safe_strncpy ..) (fun _ _ => safe_ok _)) (fun _ _ => safe_ok _), fun w' hw => ?_⟩
    obtain ⟨l, -, hw⟩ := bind_ok hw
    cases hw
    exact ⟨h.parsers, h.attached⟩
  | assignEngine e l => exact ⟨safe_ok _, fun w' e => by cases e; exact ⟨h.parsers, h.attached⟩⟩

/-- The calls of a history keep the rule. -/
def AllAllowed (w : World) : List Op → Prop
  | [] => True
  | op :: ops => Allowed w op ∧ ∀ v, w.step op = .ok v → AllAllowed v ops

/-- C58. In every history that attaches only initialised consumers, no field is read before it is set. -/
theorem C58_history (w : World) (h : Sound w) (ops : List Op) (ho : AllAllowed w ops) :
    w.run ops ≠ .error .uninitRead ∧ ∀ w', w.run ops = .ok w' → Sound w' := by
  induction ops generalizing w with
  | nil => exact ⟨(safe_ok _).ne, fun w' e => by cases e; exact h⟩
  | cons op ops ih =>
    obtain ⟨h1, h2⟩ := C58_step w h op ho.1
    cases hr : w.step op with
    | error e =>
      have : w.run (op :: ops) = .error e := by simp [World.run, List.foldlM_cons, hr, bind, Except.bind]
      rw [this]
      rw [hr] at h1
      exact ⟨fun e' => h1.ne (by injection e' with e'; rw [e']), fun w' e => by cases e⟩
    | ok v =>
      have : w.run (op :: ops) = v.run ops := by simp [World.run, List.foldlM_cons, hr, bind, Except.bind]
      rw [this]
      exact ih v (h2 v hr) (ho.2 v hr)

/-- The program at its start: new parsers, consumers of any kind in any state. -/
def World.new (pf : Platform) (kind : Nat → Consumer) (engines : Engines) : World :=
  { pf := pf, station := {}, parsers := fun _ => StreamParser.construct (conc .start none []), consumers := kind, engines := engines, log := [] }

/-- C58, from the start of the program, with new parsers and consumers in any state. -/
theorem C58_start (pf : Platform) (kind : Nat → Consumer) (engines : Engines) : Sound (World.new pf kind engines) := by
  refine ⟨fun n => ⟨.start, construct_sinv (List.replicate 31 0#8) (List.replicate 11 0#8) (List.replicate 11 0#8) (List.replicate 26 0#8) rfl rfl rfl rfl _
    (construct_rep _ _ _ _ rfl rfl rfl rfl)⟩, fun n c h => by cases h⟩

/-- C58: `setEngine` and `setStreamEndCallback` initialise an engine consumer, in either order; `setStreamEndCallback` a list. -/
theorem C58_setters (w : World) (c : Nat) (e cb : Option Nat) :
    (∀ l, w.consumers c = .loco l → ∃ v, w.run [.setEngine c e, .setEndCallback c cb] = .ok v ∧ (v.consumers c).Initialised) ∧
    (∀ l, w.consumers c = .loco l → ∃ v, w.run [.setEndCallback c cb, .setEngine c e] = .ok v ∧ (v.consumers c).Initialised) ∧
    (∀ l, w.consumers c = .list l → ∃ v, w.run [.setEndCallback c cb] = .ok v ∧ (v.consumers c).Initialised) := by
  have hptr : ∀ x : Option Nat, Ptr.ofOption x ≠ .uninit := by intro x; cases x <;> intro h <;> cases h
  refine ⟨fun l hl => ?_, fun l hl => ?_, fun l hl => ?_⟩
  · refine ⟨_, by simp only [World.run, List.foldlM_cons, List.foldlM_nil, World.step, hl, World.setConsumer, bind, Except.bind, if_true]; rfl, ?_⟩
    simp [Consumer.Initialised, hptr]
  · refine ⟨_, by simp only [World.run, List.foldlM_cons, List.foldlM_nil, World.step, hl, World.setConsumer, bind, Except.bind, if_true]; rfl, ?_⟩
    simp [Consumer.Initialised, hptr]
  · refine ⟨_, by simp only [World.run, List.foldlM_cons, List.foldlM_nil, World.step, hl, World.setConsumer, bind, Except.bind]; rfl, ?_⟩
    simp [Consumer.Initialised, hptr]

/-- C58: the setters are needed. Resetting a started parser reads the callback of a consumer that was constructed and only attached. -/
theorem C58_needed (pf : Platform) (engines : Engines) (kind : Nat → Consumer) (h : kind 0 = .loco LocoConsumer.construct ∨ kind 0 = .list LocoListConsumer.construct) :
    (World.new pf kind engines).run [.parserStart 0 (some 0), .parserStartStream 0, .parserReset 0] = .error .uninitRead := by
  have hv : ∃ v : World, v.consumers = kind ∧ (World.new pf kind engines).run [.parserStart 0 (some 0), .parserStartStream 0, .parserReset 0] =
      (v.callConsumers [⟨0, .aborted⟩]).bind .ok :=
    ⟨(((World.new pf kind engines).setParser 0 _).setParser 0 _).setParser 0 _, rfl, rfl⟩
  obtain ⟨v, hk, hr⟩ := hv
  rw [hr]
  rcases h with h | h
  · simp only [World.callConsumers, List.foldlM_cons, World.callConsumer, World.logAll, hk, h, bind, Except.bind]
    rfl
  · simp only [World.callConsumers, List.foldlM_cons, World.callConsumer, World.logAll, hk, h, bind, Except.bind]
    rfl

/-- C58: a history with an engine consumer that is set up, attached, and whose stream is aborted. -/
example : ∃ v, (World.new ⟨32⟩ (fun _ => .loco LocoConsumer.construct) (fun _ => Locomotive.construct [])).run
      [.setEngine 0 (some 0), .setEndCallback 0 (some 5), .parserStart 0 (some 0), .parserStartStream 0, .parserReset 0] = .ok v ∧
    v.log = [.consumer ⟨0, .aborted⟩, .streamEnd 5 0 false .nothing] := ⟨_, rfl, rfl⟩

end RR32
