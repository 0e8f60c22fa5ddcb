import Verif.Proofs.Compose

/-! # What a request does to the program, and which parsers are fresh -/

set_option autoImplicit false

namespace RR32

open Spec

/-! ## Resetting a parser -/

/-- What ending a stream may do to a consumer: a list is reset. -/
def Consumer.AbortedFrom (before after : Consumer) : Prop :=
  after = before ∨ ∃ l, before = .list l ∧ after = .list l.reset

/-- Resetting a parser of a sound program succeeds. -/
theorem World.reset_ok (w : World) (h : Sound w) (n : Nat) :
    ∃ v, w.parserReset n = .ok v ∧ v.parsers = (w.setParser n cleared).parsers ∧ v.engines = w.engines ∧ v.pf = w.pf ∧
      v.station = w.station ∧ (∀ c, (w.consumers c).AbortedFrom (v.consumers c)) ∧
      (∀ c, (w.parsers n).consumer ≠ some c → v.consumers c = w.consumers c) := by
  obtain ⟨s, hs⟩ := h.parsers n
  have h0 : w.parserReset n = (w.setParser n cleared).callConsumers (w.parsers n).resetNotify := by
    simp only [World.parserReset, reset_sinv _ s hs, bind, Except.bind]
  rw [h0]
  have hnone : ∃ v, (w.setParser n cleared).callConsumers [] = .ok v ∧ v.parsers = (w.setParser n cleared).parsers ∧ v.engines = w.engines ∧
      v.pf = w.pf ∧ v.station = w.station ∧ (∀ c, (w.consumers c).AbortedFrom (v.consumers c)) ∧
      (∀ c, (w.parsers n).consumer ≠ some c → v.consumers c = w.consumers c) :=
    ⟨_, rfl, rfl, rfl, rfl, rfl, fun _ => Or.inl rfl, fun _ _ => rfl⟩
  unfold StreamParser.resetNotify
  split
  · unfold StreamParser.notify
    cases hc : (w.parsers n).consumer with
    | none => rw [hc] at hnone; exact hnone
    | some c =>
      have hi := h.attached n c hc
      simp only
      rw [World.callConsumers_cons]
      unfold World.callConsumer
      simp only [World.logAll, World.setParser]
      cases hk : w.consumers c with
      | app => exact ⟨_, rfl, rfl, rfl, rfl, rfl, fun _ => Or.inl rfl, fun _ _ => rfl⟩
      | loco l =>
        rw [hk] at hi
        simp only [LocoConsumer.setStreamAborted]
        cases hcb : l.streamEndCallback with
        | uninit => exact absurd hcb hi.2
        | null => exact ⟨_, rfl, rfl, rfl, rfl, rfl, fun _ => Or.inl rfl, fun _ _ => rfl⟩
        | obj cb => exact ⟨_, rfl, rfl, rfl, rfl, rfl, fun _ => Or.inl rfl, fun _ _ => rfl⟩
      | list l =>
        rw [hk] at hi
        have hset : ∀ c', (w.consumers c').AbortedFrom (if c' = c then Consumer.list l.reset else w.consumers c') := by
          intro c'
          split
          · next e => exact Or.inr ⟨l, by rw [e, hk], rfl⟩
          · exact Or.inl rfl
        have hne : ∀ c', some c ≠ some c' → (if c' = c then Consumer.list l.reset else w.consumers c') = w.consumers c' := by
          intro c' hne
          rw [if_neg (fun e => hne (by rw [e]))]
        simp only [LocoListConsumer.setStreamAborted]
        cases hcb : l.streamEndCallback with
        | uninit => exact absurd hcb hi
        | null =>
          simp only [LocoListConsumer.reset, LocoListConsumer.clearTable, hcb, Ptr.read, bind, Except.bind]
          refine ⟨_, rfl, rfl, rfl, rfl, rfl, fun c' => ?_, fun c' h' => ?_⟩
          · have := hset c'; rw [LocoListConsumer.reset, LocoListConsumer.clearTable, hcb] at this; exact this
          · have := hne c' h'; rw [LocoListConsumer.reset, LocoListConsumer.clearTable, hcb] at this; exact this
        | obj cb =>
          simp only [LocoListConsumer.reset, LocoListConsumer.clearTable, hcb, Ptr.read, bind, Except.bind]
          refine ⟨_, rfl, rfl, rfl, rfl, rfl, fun c' => ?_, fun c' h' => ?_⟩
          · have := hset c'; rw [LocoListConsumer.reset, LocoListConsumer.clearTable, hcb] at this; exact this
          · have := hne c' h'; rw [LocoListConsumer.reset, LocoListConsumer.clearTable, hcb] at this; exact this
  · exact hnone

/-! ## Requests -/

/-- A request that the station does not ignore: for the engine list, or for an engine with a known name while no stream runs. -/
inductive Requests (w : World) (n : Nat) : Op → Prop where
  | engineList (offset : Byte) : Requests w n (.requestEngineList offset (some n))
  | engine (e : Nat) (hk : (w.engines e).info.isNameKnown = true) (ht : Terminated (w.engines e).info.name)
      (hp : w.station.callbacks.configData = none ∨ w.processing = false) : Requests w n (.requestEngine e (some n))
  | shortInfo (i : ShortInfo) (hk : i.isNameKnown = true) (ht : Terminated i.name)
      (hp : w.station.callbacks.configData = none ∨ w.processing = false) : Requests w n (.requestShortInfo i (some n))

/-- Requests end the current one, start the parser and transmit. -/
theorem Requests.calls {w : World} {n : Nat} {op : Op} (h : Requests w n op) {cb : Nat} (htx : w.station.callbacks.tx = some cb) :
    ∃ txs, (∀ c ∈ txs, ∃ f, c = Call.tx cb f) ∧
      w.step op = { w with station := { w.station with callbacks := { w.station.callbacks with configData := some n } } }.runCalls
        (w.station.callbacks.configData.toList.map Call.cfgReset ++ [Call.cfgStart n] ++ txs) := by
  have engine : ∀ (i : ShortInfo), i.isNameKnown = true → Terminated i.name →
      (w.station.callbacks.configData = none ∨ w.processing = false) → ∃ txs, (∀ c ∈ txs, ∃ f, c = Call.tx cb f) ∧
      w.stationUpdate (w.station.RequestEngine w.processing i (some n)) =
        { w with station := { w.station with callbacks := { w.station.callbacks with configData := some n } } }.runCalls
        (w.station.callbacks.configData.toList.map Call.cfgReset ++ [Call.cfgStart n] ++ txs) := by
    intro i hk ht hp
    obtain ⟨r, hr⟩ := split_text ht
    obtain ⟨f1, f2, f3, h1, -⟩ := C21_request_engine w.station cb htx w.processing i (some n) (text i.name) r hr (text_noNul _) hk hp
    refine ⟨[.tx cb f1, .tx cb f2, .tx cb f3], ?_, ?_⟩
    · intro c hc
      simp only [List.mem_cons, List.not_mem_nil, or_false] at hc
      rcases hc with rfl | rfl | rfl <;> exact ⟨_, rfl⟩
    · rw [h1]
      rfl
  cases h with
  | engineList offset =>
    obtain ⟨f1, f2, h1, -⟩ := C20_request_engine_list w.station cb htx offset (some n)
    refine ⟨[.tx cb f1, .tx cb f2], ?_, ?_⟩
    · intro c hc
      simp only [List.mem_cons, List.not_mem_nil, or_false] at hc
      rcases hc with rfl | rfl <;> exact ⟨_, rfl⟩
    · simp only [World.step, h1]
      rfl
  | engine e hk ht hp => exact engine _ hk ht hp
  | shortInfo i hk ht hp => exact engine i hk ht hp

theorem World.runCalls_append (w : World) (a b : List Call) : w.runCalls (a ++ b) = (w.runCalls a).bind (fun v => v.runCalls b) := by
  induction a generalizing w with
  | nil => rfl
  | cons c a ih =>
    show (w.runCall c).bind (fun v => v.runCalls (a ++ b)) = ((w.runCall c).bind (fun v => v.runCalls a)).bind _
    cases w.runCall c with
    | error e => rfl
    | ok v => exact ih v

theorem World.runCalls_tx (w : World) (cb : Nat) (txs : List Call) (h : ∀ c ∈ txs, ∃ f, c = Call.tx cb f) :
    w.runCalls txs = .ok (w.logAll (txs.map .call)) := by
  induction txs generalizing w with
  | nil => simp [World.runCalls, World.logAll]; rfl
  | cons c txs ih =>
    obtain ⟨f, rfl⟩ := h c (List.mem_cons_self ..)
    show (w.logAll [.call (.tx cb f)]).runCalls txs = _
    rw [ih _ (fun c hc => h c (List.mem_cons_of_mem _ hc))]
    simp [World.logAll]

/-- What a request does: the parser is registered and started; if it was registered already it was reset before that. -/
theorem Requests.effect {w : World} (h : Sound w) {n : Nat} {op : Op} (hr : Requests w n op) {cb : Nat}
    (htx : w.station.callbacks.tx = some cb) :
    ∃ v, w.step op = .ok v ∧ Sound v ∧
      v.station = { w.station with callbacks := { w.station.callbacks with configData := some n } } ∧
      v.parsers n = (if w.station.callbacks.configData = some n then cleared else w.parsers n).startStream ∧
      v.engines = w.engines ∧ v.pf = w.pf ∧ (∀ c, (w.consumers c).AbortedFrom (v.consumers c)) ∧
      (∀ c, (∀ m, w.station.callbacks.configData = some m → (w.parsers m).consumer ≠ some c) → v.consumers c = w.consumers c) := by
  obtain ⟨txs, h1, h2⟩ := hr.calls htx
  have hsound : ∀ v, w.step op = .ok v → Sound v := (C58_step w h op (by cases hr <;> trivial)).2
  rw [List.append_assoc, World.runCalls_append] at h2
  have hstart : ∀ v : World, v.runCalls ([Call.cfgStart n] ++ txs) =
      .ok ((v.setParser n (v.parsers n).startStream).logAll (txs.map .call)) := by
    intro v
    show (v.setParser n (v.parsers n).startStream).runCalls txs = _
    rw [World.runCalls_tx _ cb txs h1]
  cases hc : w.station.callbacks.configData with
  | none =>
    rw [hc] at h2
    have h3 := h2.trans (hstart _)
    refine ⟨_, h3, hsound _ h3, rfl, ?_, rfl, rfl, fun c => Or.inl rfl, fun c _ => rfl⟩
    rw [if_neg (by intro e; cases e)]
    exact World.setParser_get ..
  | some m =>
    rw [hc] at h2
    have hw : Sound { w with station := { w.station with callbacks := { w.station.callbacks with configData := some n } } } :=
      ⟨h.parsers, h.attached⟩
    obtain ⟨v, g1, g2, g3, g4, g5, g6, g7⟩ := World.reset_ok _ hw m
    have h3 : w.step op = .ok ((v.setParser n (v.parsers n).startStream).logAll (txs.map .call)) := by
      rw [h2, ← hstart]
      show ((World.parserReset _ m).bind .ok).bind _ = _
      rw [g1]
      rfl
    refine ⟨_, h3, hsound _ h3, g5, ?_, g3, g4, g6, fun c hm => g7 c (hm m rfl)⟩
    show (v.setParser n _).parsers n = _
    rw [World.setParser_get, g2]
    simp only [World.setParser]
    by_cases hnm : m = n
    · rw [if_pos hnm.symm, if_pos (by rw [hnm])]
    · rw [if_neg (fun e => hnm e.symm), if_neg (fun e => hnm (by injection e))]

/-! ## Fresh parsers -/

/-- A parser that has seen nothing since it was constructed or reset, except consumers. -/
def Fresh (p : StreamParser) : Prop := p.state = .IDLE ∧ p.text = conc .start p.consumer []

theorem fresh_cleared : Fresh cleared := ⟨rfl, rfl⟩

theorem fresh_attach {p : StreamParser} (h : Fresh p) (c : Option Nat) : Fresh (p.startStreamConsumer c) := by
  refine ⟨h.1, ?_⟩
  show p.text.setConsumer c = _
  rw [h.2]
  rfl

/-- Every parser but the registered one is fresh. -/
def Tidy (w : World) : Prop := ∀ n, w.station.callbacks.configData ≠ some n → Fresh (w.parsers n)

/-- Calls an application makes that do not drive a parser behind the station's back. -/
def Op.viaStation : Op → Bool
  | .parserStartStream .. | .parserAdd .. => false
  | _ => true

/-- Calls of the station that concern the registered parser only. -/
def Call.on (o : Option Nat) : Call → Prop
  | .cfgStart n => o = some n
  | .cfgAdd n _ => o = some n
  | _ => True

theorem tidy_runCall {w v : World} {c : Call} (ht : Tidy w) (h : Sound w) (hc : c.on w.station.callbacks.configData)
    (hv : w.runCall c = .ok v) : Tidy v ∧ Sound v ∧ v.station = w.station := by
  have hs := (runCall_safe w h c).2 v hv
  have hst := (World.runCall_log w v c hv).1
  refine ⟨?_, hs, hst⟩
  intro n hn
  rw [hst] at hn
  cases c with
  | cfgStart m =>
    cases hv
    simp only [Call.on] at hc
    simp only [World.setParser]
    rw [if_neg (fun e => hn (by rw [hc, e]))]
    exact ht n hn
  | cfgAdd m d =>
    obtain ⟨⟨p, calls⟩, -, h2⟩ := bind_ok hv
    obtain ⟨-, h3⟩ := World.callConsumers_quiet _ _ _ h2
    simp only [Call.on] at hc
    rw [h3]
    simp only [World.setParser]
    rw [if_neg (fun e => hn (by rw [hc, e]))]
    exact ht n hn
  | cfgReset m =>
    obtain ⟨u, g1, g2, -⟩ := World.reset_ok w h m
    have : u = v := by
      have e : w.parserReset m = .ok v := hv
      rw [g1] at e
      injection e
    subst this
    rw [g2]
    simp only [World.setParser]
    split
    · exact fresh_cleared
    · exact ht n hn
  | _ => cases hv; exact ht n hn

theorem tidy_runCalls {cs : List Call} {w v : World} (ht : Tidy w) (h : Sound w) (hc : ∀ c ∈ cs, c.on w.station.callbacks.configData)
    (hv : w.runCalls cs = .ok v) : Tidy v := by
  induction cs generalizing w with
  | nil => cases hv; exact ht
  | cons c cs ih =>
    obtain ⟨u, h1, h2⟩ := bind_ok (show (w.runCall c >>= fun u => u.runCalls cs) = .ok v from hv)
    obtain ⟨g1, g2, g3⟩ := tidy_runCall ht h (hc c (List.mem_cons_self ..)) h1
    exact ih g1 g2 (fun x hx => by rw [g3]; exact hc x (List.mem_cons_of_mem _ hx)) h2

/-- A change of the station that resets the parser registered before, and then calls the one registered now. -/
def Switches (s : Station) (r : Res (Station × List Call)) : Prop :=
  ∀ t calls, r = .ok (t, calls) → (t = s ∧ calls = []) ∨
    ∃ rest, calls = s.callbacks.configData.toList.map Call.cfgReset ++ rest ∧ ∀ c ∈ rest, c.on t.callbacks.configData

theorem switches_finish (s : Station) : Switches s (.ok s.FinishCurrentConfigRequest) := by
  intro t calls h
  refine Or.inr ⟨[], ?_, by intro c h; cases h⟩
  unfold Station.FinishCurrentConfigRequest at h
  cases hc : s.callbacks.configData with
  | none => rw [hc] at h; cases h; rfl
  | some n => rw [hc] at h; cases h; rfl

theorem switches_begin (s : Station) (uuid : U16) (cbs : Callbacks) : Switches s (.ok (s.begin_ uuid cbs)) := by
  intro t calls h
  refine Or.inr ⟨[], ?_, by intro c h; cases h⟩
  unfold Station.begin_ Station.AbortCurrentConfigRequest Station.FinishCurrentConfigRequest at h
  cases hc : s.callbacks.configData with
  | none => rw [hc] at h; cases h; rfl
  | some n => rw [hc] at h; cases h; rfl

theorem finish_calls (s : Station) : s.AbortCurrentConfigRequest.2 = s.callbacks.configData.toList.map Call.cfgReset := by
  unfold Station.AbortCurrentConfigRequest Station.FinishCurrentConfigRequest
  cases s.callbacks.configData <;> rfl

theorem txSend_on {s : Station} {f : CanFrame} {l : List Call} (h : s.txSend f = .ok l) (o : Option Nat) : ∀ c ∈ l, c.on o := by
  unfold Station.txSend at h
  split at h
  · cases h
  · cases h
    intro c hc
    rw [List.mem_singleton.mp hc]
    trivial

theorem start_on (o : Option Nat) : ∀ c ∈ o.toList.map Call.cfgStart, c.on o := by
  intro c hc
  cases o with
  | none => cases hc
  | some n => rw [List.mem_singleton.mp hc]; rfl

theorem switches_list (s : Station) (offset : Byte) (parser : Option Nat) : Switches s (s.RequestEngineList offset parser) := by
  intro t calls h
  unfold Station.RequestEngineList at h
  simp only at h
  obtain ⟨m1, -, h⟩ := bind_ok h
  obtain ⟨⟨m2, n⟩, -, h⟩ := bind_ok h
  simp only at h
  right
  split at h
  · obtain ⟨t1, h1, h⟩ := bind_ok h
    obtain ⟨t2, h2, h⟩ := bind_ok h
    injection h with h
    injection h with ha hb
    subst ha
    refine ⟨parser.toList.map Call.cfgStart ++ t1 ++ t2, ?_, ?_⟩
    · rw [← hb, finish_calls]
      cases parser <;> simp only [List.append_assoc] <;> rfl
    · intro c hc
      simp only [List.mem_append] at hc
      rcases hc with (hc | hc) | hc
      · exact start_on parser c hc
      · exact txSend_on h1 _ c hc
      · exact txSend_on h2 _ c hc
  · injection h with h
    injection h with ha hb
    exact ⟨[], by rw [← hb, finish_calls, List.append_nil], by intro c h; cases h⟩

theorem switches_engine (s : Station) (b : Bool) (i : ShortInfo) (parser : Option Nat) : Switches s (s.RequestEngine b i parser) := by
  intro t calls h
  unfold Station.RequestEngine at h
  split at h
  · cases h; exact Or.inl ⟨rfl, rfl⟩
  split at h
  · cases h; exact Or.inl ⟨rfl, rfl⟩
  simp only at h
  obtain ⟨m1, -, h⟩ := bind_ok h
  obtain ⟨t1, h1, h⟩ := bind_ok h
  obtain ⟨len, -, h⟩ := bind_ok h
  obtain ⟨m2, -, h⟩ := bind_ok h
  obtain ⟨t2, h2, h⟩ := bind_ok h
  obtain ⟨d, -, h⟩ := bind_ok h
  obtain ⟨t3, h3, h⟩ := bind_ok h
  injection h with h
  injection h with ha hb
  subst ha
  refine Or.inr ⟨parser.toList.map Call.cfgStart ++ t1 ++ t2 ++ t3, ?_, ?_⟩
  · rw [← hb, finish_calls]
    cases parser <;> simp only [List.append_assoc] <;> rfl
  · intro c hc
    simp only [List.mem_append] at hc
    rcases hc with ((hc | hc) | hc) | hc
    · exact start_on parser c hc
    · exact txSend_on h1 _ c hc
    · exact txSend_on h2 _ c hc
    · exact txSend_on h3 _ c hc

theorem tidy_update {w v : World} (ht : Tidy w) (h : Sound w) {r : Res (Station × List Call)} (hr : Switches w.station r)
    (hv : w.stationUpdate r = .ok v) : Tidy v := by
  obtain ⟨⟨t, calls⟩, h1, h2⟩ := bind_ok hv
  rcases hr t calls h1 with ⟨rfl, rfl⟩ | ⟨rest, rfl, hrest⟩
  · cases h2; exact ht
  · simp only [World.runCalls_append] at h2
    obtain ⟨u, h3, h4⟩ := bind_ok h2
    have hw : Sound { w with station := t } := ⟨h.parsers, h.attached⟩
    have key : Tidy u ∧ Sound u ∧ u.station = t := by
      refine ⟨?_, (runCalls_safe _ hw _).2 u h3, (World.runCalls_log _ _ _ h3).1⟩
      cases hc : w.station.callbacks.configData with
      | none =>
        rw [hc] at h3
        cases h3
        intro n hn
        exact ht n (by rw [hc]; intro e; cases e)
      | some m =>
        rw [hc] at h3
        obtain ⟨u', g1, g2, -⟩ := World.reset_ok _ hw m
        have : u' = u := by
          have e : ((World.parserReset { w with station := t } m).bind .ok) = .ok u := h3
          rw [g1] at e
          injection e
        subst this
        intro n hn
        rw [g2]
        simp only [World.setParser]
        split
        · exact fresh_cleared
        · next e => exact ht n (by rw [hc]; intro e'; injection e' with e'; exact e e'.symm)
    exact tidy_runCalls key.1 key.2.1 (by rw [key.2.2]; exact hrest) h4

theorem tidy_calls {w v : World} (ht : Tidy w) (h : Sound w) {r : Res (List Call)}
    (hr : ∀ calls, r = .ok calls → ∀ c ∈ calls, c.on w.station.callbacks.configData) (hv : w.stationCalls r = .ok v) : Tidy v := by
  obtain ⟨calls, h1, h2⟩ := bind_ok hv
  exact tidy_runCalls ht h (hr calls h1) h2

theorem handle_on (s : Station) (b : Bool) (f : CanFrame) (calls : List Call) (h : s.HandlePacket b f = .ok calls) :
    ∀ c ∈ calls, c.on s.callbacks.configData := by
  rw [HandlePacket_eq] at h
  split at h
  · cases h
  split at h
  · cases h
  injection h with h
  subst h
  have key : ∀ (o : Option Nat) (g : Nat → Call), (∀ n, o = some n → (g n).on s.callbacks.configData) →
      ∀ c ∈ toward o g, c.on s.callbacks.configData := by
    intro o g hg c hc
    cases o with
    | none => cases hc
    | some n => rw [List.mem_singleton.mp hc]; exact hg n rfl
  have nil : ∀ c ∈ ([] : List Call), c.on s.callbacks.configData := by intro c hc; cases hc
  unfold reaction
  simp only
  split
  · split
    · split
      · exact key _ _ (fun _ _ => trivial)
      · exact key _ _ (fun _ _ => trivial)
      · exact key _ _ (fun _ _ => trivial)
      · exact key _ _ (fun _ _ => trivial)
      · exact nil
    · exact nil
  · split
    · exact key _ _ (fun _ _ => trivial)
    · exact nil
  · split
    · split
      · exact key _ _ (fun _ _ => trivial)
      · exact key _ _ (fun _ _ => trivial)
      · exact key _ _ (fun _ _ => trivial)
      · exact nil
    · exact nil
  · split
    · exact key _ _ (fun _ _ => trivial)
    · exact nil
  · exact key _ _ (fun _ _ => trivial)
  · split
    · exact key _ _ (fun n hn => hn)
    · exact nil
  · exact nil

theorem allFunctions_on (s : Station) (n : Nat) (f : CanFrame) (i : Byte) (calls : List Call) (h : s.allFunctionsLoop f n i = .ok calls)
    (o : Option Nat) : ∀ c ∈ calls, c.on o := by
  induction n generalizing f i calls with
  | zero => cases h; intro c h; cases h
  | succ n ih =>
    obtain ⟨t, h1, h⟩ := bind_ok h
    obtain ⟨ts, h2, h⟩ := bind_ok h
    cases h
    intro c hc
    rcases List.mem_append.mp hc with hc | hc
    · exact txSend_on h1 o c hc
    · exact ih _ _ ts h2 c hc

/-- Parsers other than the registered one are fresh, as long as the application leaves the packets to the station. -/
theorem tidy_step {w v : World} (ht : Tidy w) (h : Sound w) {op : Op} (ho : op.viaStation = true) (hv : w.step op = .ok v) : Tidy v := by
  cases op with
  | begin_ u c => exact tidy_update ht h (switches_begin _ u c) hv
  | handle f => exact tidy_calls ht h (handle_on _ _ f) hv
  | finish => exact tidy_update ht h (switches_finish _) hv
  | abort => exact tidy_update ht h (switches_finish _) hv
  | notifyReceived => exact tidy_update ht h (switches_finish _) hv
  | requestEngine e p => exact tidy_update ht h (switches_engine _ _ _ _) hv
  | requestShortInfo i p => exact tidy_update ht h (switches_engine _ _ _ _) hv
  | requestEngineList o p => exact tidy_update ht h (switches_list _ _ _) hv
  | requestDirection e => exact tidy_calls ht h (fun _ hc => txSend_on hc _) hv
  | sendDirection e d =>
    refine tidy_calls ht h (fun calls hc => ?_) hv
    unfold Station.SendEngineDirection at hc
    split at hc
    · exact txSend_on hc _
    · cases hc; intro c hc; cases hc
  | requestVelocity e => exact tidy_calls ht h (fun _ hc => txSend_on hc _) hv
  | sendVelocity e v => exact tidy_calls ht h (fun _ hc => txSend_on hc _) hv
  | requestFunction e f => exact tidy_calls ht h (fun _ hc => txSend_on hc _) hv
  | requestAllFunctions e => exact tidy_calls ht h (fun calls hc => allFunctions_on _ _ _ _ calls hc _) hv
  | sendFunction e f v => exact tidy_calls ht h (fun _ hc => txSend_on hc _) hv
  | sendEmergencyStop e => exact tidy_calls ht h (fun _ hc => txSend_on hc _) hv
  | sendStop => exact tidy_calls ht h (fun _ hc => txSend_on hc _) hv
  | sendGo => exact tidy_calls ht h (fun _ hc => txSend_on hc _) hv
  | sendAccessory a p d pw => exact tidy_calls ht h (fun _ hc => txSend_on hc _) hv
  | sendPacket f => exact tidy_calls ht h (fun _ hc => txSend_on hc _) hv
  | parserStart n c =>
    cases hv
    intro m hm
    simp only [World.setParser]
    split
    · next e => rw [← e]; exact fresh_attach (ht m hm) c
    · exact ht m hm
  | parserStartStream n => cases ho
  | parserAdd n d => cases ho
  | parserReset n =>
    obtain ⟨u, g1, g2, -, -, g5, -⟩ := World.reset_ok w h n
    have : u = v := by
      have e : w.parserReset n = .ok v := hv
      rw [g1] at e
      injection e
    subst this
    intro m hm
    rw [g5] at hm
    rw [g2]
    simp only [World.setParser]
    split
    · exact fresh_cleared
    · exact ht m hm
  | setEngine c e =>
    simp only [World.step] at hv
    split at hv <;> (cases hv; exact ht)
  | setEndCallback c cb =>
    simp only [World.step] at hv
    split at hv <;> (cases hv; exact ht)
  | setStreamOffset c o =>
    simp only [World.step] at hv
    split at hv <;> (cases hv; exact ht)
  | clearTable c =>
    simp only [World.step] at hv
    split at hv <;> (cases hv; exact ht)
  | resetList c =>
    simp only [World.step] at hv
    split at hv <;> (cases hv; exact ht)
  | setName e name =>
    obtain ⟨l, -, hv⟩ := bind_ok hv
    cases hv
    exact ht
  | assignEngine e l => cases hv; exact ht

theorem tidy_history (ops : List Op) (w v : World) (ht : Tidy w) (h : Sound w) (ha : AllAllowed w ops)
    (ho : ∀ op ∈ ops, op.viaStation = true) (hv : w.run ops = .ok v) : Tidy v ∧ Sound v := by
  induction ops generalizing w with
  | nil => cases hv; exact ⟨ht, h⟩
  | cons op ops ih =>
    obtain ⟨u, h1, h2⟩ := bind_ok (show (w.step op >>= fun u => u.run ops) = .ok v from hv)
    exact ih u (tidy_step ht h (ho op (List.mem_cons_self ..)) h1) ((C58_step w h op ha.1).2 u h1) (ha.2 u h1)
      (fun x hx => ho x (List.mem_cons_of_mem _ hx)) h2

theorem tidy_new (pf : Platform) (kind : Nat → Consumer) (engines : Engines) : Tidy (World.new pf kind engines) :=
  fun _ _ => ⟨rfl, rfl⟩

end RR32
