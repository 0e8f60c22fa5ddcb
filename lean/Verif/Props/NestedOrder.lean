import Verif.Props.NestedEntry
import Verif.Proofs.NestedStable

/-!
# What callbacks may call while a packet is parsed

C79: if callbacks leave a parser alone while it waits for data, its consumer is given the entries of each packet in order and the parser
goes on as if nothing had been called.
-/

set_option autoImplicit false

namespace RR32

open Spec

namespace World

/-- A request for an engine. -/
def AsksEngine (op : Op) : Prop := (∃ e p, op = .requestEngine e p) ∨ ∃ i p, op = .requestShortInfo i p

/-- Callbacks leave parser `n` alone while it waits for data: they do not request the list, do not end the current request, do not deliver
stream packets, and do not call the parser. They may request engines: the library ignores that. -/
def Spares (P : Program) (n : Nat) : Prop :=
  ∀ u l, (u.parsers n).state = .WAITING_DATA_PACKET → ∀ op ∈ P u l, Sparing (· ≠ n) op ∨ AsksEngine op

/-- While the registered parser waits for data, a request for an engine does nothing. -/
theorem asksEngine_ignored (P : Program) (k : World → Op → Run World) (w : World) (n : Nat) (hr : w.station.callbacks.configData = some n)
    (hs : (w.parsers n).state = .WAITING_DATA_PACKET) (op : Op) (ho : AsksEngine op) : stepN P k w op = pure w := by
  have hp : w.processing = true := by
    unfold processing StreamParser.isProcessing
    rw [hr]
    dsimp only
    rw [hs]
    rfl
  have hreq : ∀ info p, requestEngineN P k w info p = pure w := by
    intro info p
    unfold requestEngineN
    rw [hr, hp]
    simp
  rcases ho with ⟨e, p, rfl⟩ | ⟨i, p, rfl⟩
  · show requestEngineN P k w (fun w => (w.engines e).info) p = _
    exact hreq _ _
  · show requestEngineN P k w (fun _ => i) p = _
    exact hreq _ _

/-- Parser `n` and the station are as they were, the application's consumer `c` is still that, and the log has only grown. -/
def Untouched (n c : Nat) (w0 v : World) : Prop :=
  v.parsers n = w0.parsers n ∧ (w0.consumers c = .app → v.consumers c = .app) ∧ w0.log <+: v.log ∧ v.station = w0.station

theorem untouched_stable (n c : Nat) (w0 : World) : Stable (· ≠ n) (fun _ => True) (Untouched n c w0) where
  log w l h := ⟨h.1, h.2.1, h.2.2.1.trans (List.prefix_append _ _), h.2.2.2⟩
  parser w m p hm h := ⟨by simp only [setParser]; rw [if_neg (Ne.symm hm)]; exact h.1, h.2.1, h.2.2⟩
  engines w e _ h := h
  consumer w d x hd hx h := by
    refine ⟨h.1, fun ha => ?_, h.2.2⟩
    have := h.2.1 ha
    simp only [setConsumer]
    split
    · next e => rw [e] at this; exact absurd this hd
    · exact this
  station hT := absurd rfl (hT n)

theorem react_spares {P : Program} {n : Nat} (hS : Spares P n) (c : Nat) (w0 : World) (h0 : (w0.parsers n).state = .WAITING_DATA_PACKET)
    (hr : w0.station.callbacks.configData = some n) (depth : Nat) (u : World) (l : LogEntry) (hu : Untouched n c w0 u) : (react P (nested P depth) u l).Keeps (Untouched n c w0) := by
  induction depth generalizing u l with
  | zero => exact sat_foldlM _ _ _ _ (fun op _ x _ => trivial) hu
  | succ depth ih =>
    refine sat_foldlM _ _ _ _ (fun op hop x hx => ?_) hu
    rcases hS u l (by rw [hu.1]; exact h0) op hop with h1 | h1
    · exact stepN_stable (untouched_stable n c w0) (fun w e hw => ih w e hw) x op h1 (naming_all op) hx
    · show (stepN P (nested P depth) x op).Keeps _
      rw [asksEngine_ignored P _ x n (by rw [hx.2.2.2]; exact hr) (by rw [hx.1]; exact h0) op h1]
      exact hx

/-- Calls on other parsers, or of other functions, from the main program leave the parser alone too. -/
theorem step_spares {P : Program} {n : Nat} (hS : Spares P n) (c : Nat) (w : World) (h0 : (w.parsers n).state = .WAITING_DATA_PACKET)
    (hr : w.station.callbacks.configData = some n) (depth : Nat) (op : Op) (hop : Sparing (· ≠ n) op ∨ AsksEngine op) :
    (stepN P (nested P depth) w op).Keeps (Untouched n c w) := by
  have h : Untouched n c w w := ⟨rfl, id, List.prefix_refl _, rfl⟩
  rcases hop with hop | hop
  · exact stepN_stable (untouched_stable n c w) (fun u e hu => react_spares hS c w h0 hr depth u e hu) w op hop (naming_all op) h
  · rw [asksEngine_ignored P _ w n hr h0 op hop]
    exact h

theorem given_start {P : Program} {k : World → Op → Run World} {n c : Nat} {w v : World} {es : List Entry} (t : TextParser) (h : Given P k n c w es v) :
    ∃ u, Given P k n c (w.setText n t) es u ∧ ∀ t', u.setText n t' = v.setText n t' := by
  cases h with
  | nil => exact ⟨w.setText n t, .nil _, fun t' => setText_setText ..⟩
  | cons _ x _ t' e es h1 h2 => exact ⟨v, .cons _ _ _ t' _ _ (by rw [setText_setText]; exact h1) h2, fun _ => rfl⟩

/-! ## C79 -/

/-- The parser after a data packet of 8 bytes, apart from the end of the stream. -/
def afterPacket (p : StreamParser) (crc : Crc) (s : Reader) (d : Data) : StreamParser :=
  { p with remaining := p.remaining - 8#32, crc := some ((packetBytes d).foldl Crc.updateCrc crc), text := conc (s.chunk (packetBytes d)).1 p.consumer [] }

/-- C79. If callbacks leave the parser alone while it waits for data, whatever else they call, a data packet has its usual effect: the
consumer is given the entries of the packet, one after the other and each once; between them runs what is called meanwhile; the parser
ends as it would have, and if this is the end of the stream, the consumer is told so last. -/
theorem C79_order_partial (P : Program) (n : Nat) (hS : Spares P n) (depth : Nat) (w : World) (c : Nat) (s : Reader) (h : InStream w n c s) (f : CanFrame)
    (hf : commandOf f = 0x21) (hd : f.data.dlc = 8#8) (crc : Crc) (hc : (w.parsers n).crc = some crc)
    (v : World) (hv : (stepN P (nested P depth) w (.handle f)).Returns v) (p : StreamParser) (hp : p = afterPacket (w.parsers n) crc s f.data) :
    ∃ u, Given P (nested P depth) n c (w.setParser n p) (s.chunk (packetBytes f.data)).2 u ∧ u.station = w.station ∧ u.consumers c = .app ∧
      (p.remaining ≠ 0#32 → v = u.setParser n p) ∧
      (p.remaining = 0#32 → ((packetBytes f.data).foldl Crc.updateCrc crc).isCrcValid = true →
        (react P (nested P depth) ((u.setParser n { p with state := .STREAM_DONE }).logAll [.consumer ⟨c, .complete⟩]) (.consumer ⟨c, .complete⟩)).Returns v) ∧
      (p.remaining = 0#32 → ((packetBytes f.data).foldl Crc.updateCrc crc).isCrcValid = false →
        (react P (nested P depth) ((u.setParser n { p with state := .IDLE }).logAll [.consumer ⟨c, .aborted⟩]) (.consumer ⟨c, .aborted⟩)).Returns v) := by
  subst hp
  have hcont : content { mem := f.data.bytes, cap := f.data.dlc.toNat, len := CanDataMaxLength } = packetBytes f.data := rfl
  have hok : BufOk { mem := f.data.bytes, cap := f.data.dlc.toNat, len := CanDataMaxLength } := by
    rw [hd]; exact ⟨Nat.le_refl 8, by simp, (show 8 ≤ 9 by decide)⟩
  have hg : (w.parsers n).getCrc = .ok crc := by unfold StreamParser.getCrc; rw [hc]
  have hproc : (w.parsers n).isProcessing = true := by unfold StreamParser.isProcessing; rw [h.waiting]; rfl
  have hr : resets (w.parsers n) f.data = false := by unfold resets; rw [h.waiting, hd]; rfl
  have h1 : (parserDataN P (nested P depth) w n f.data).Returns v := by
    have : (runCallsN P (nested P depth) w (w.station.HandlePacket w.processing f)).Returns v := hv
    unfold runCallsN at this
    rw [handle_waiting w n h.registered hproc f hf, lift_ok_pure, pure_bind, List.foldlM_cons] at this
    have h2 : (parserAddN P (nested P depth) w n f.data >>= fun x => pure x).Returns v := this
    rwa [bind_pure, parserAddN, hr, if_neg (by decide), if_pos h.waiting] at h2
  generalize hw1 : w.setParser n { w.parsers n with remaining := (w.parsers n).remaining - 8#32, crc := some ((packetBytes f.data).foldl Crc.updateCrc crc) } = w1
  have h2 : (addTextN P (nested P depth) w1 n { mem := f.data.bytes, cap := f.data.dlc.toNat, len := CanDataMaxLength } >>= fun x => dataEnd P (nested P depth) x n).Returns v := by
    unfold parserDataN at h1
    rw [hg, lift_ok_pure, pure_bind] at h1
    rw [← hw1]
    have e : (f.data.bytes.take f.data.dlc.toNat) = packetBytes f.data := by rw [hd]; rfl
    rw [e, hd] at h1
    rw [hd]
    exact h1
  have ht : w1.text n = conc s (some c) [] := by
    rw [← hw1]; unfold text; rw [setParser_get]; dsimp only; rw [h.inv.text.eq, h.consumer]
  have hp1 : w1.parsers n = { w.parsers n with remaining := (w.parsers n).remaining - 8#32, crc := some ((packetBytes f.data).foldl Crc.updateCrc crc) } := by
    rw [← hw1, setParser_get]
  obtain ⟨r, hr1, hr2⟩ := returns_bind.mp h2
  let J : World → Prop := fun x => (∃ t, x.parsers n = { w1.parsers n with text := t }) ∧ x.consumers c = .app ∧ x.station = w.station
  have hJ : ∀ x t, J x → J (x.setText n t) := by
    rintro x t ⟨⟨t', h3⟩, h4, h5⟩
    exact ⟨⟨t, by unfold setText; rw [setParser_get, h3]⟩, h4, h5⟩
  have hC : ∀ x y e, J x → (callConsumerN P (nested P depth) x (entryCall c e)).Returns y → J y ∧ y.text n = x.text n := by
    rintro x y e ⟨⟨t, h3⟩, h4, h4'⟩ h5
    rw [callConsumerN_app P _ x _ h4] at h5
    have hx : ((x.logAll [LogEntry.consumer (entryCall c e)]).parsers n).state = .WAITING_DATA_PACKET := by
      show (x.parsers n).state = _
      rw [h3, hp1]; exact h.waiting
    have h6 := keeps_returns (react_spares hS c _ hx (by show x.station.callbacks.configData = _; rw [h4']; exact h.registered) depth _ _ ⟨rfl, id, List.prefix_refl _, rfl⟩) h5
    have h7 : y.parsers n = x.parsers n := h6.1
    exact ⟨⟨⟨t, by rw [h7, h3]⟩, h6.2.1 h4, h6.2.2.2.trans h4'⟩, by unfold text; rw [h7]⟩
  have hj : J w1 := ⟨⟨(w1.parsers n).text, rfl⟩, by rw [← hw1]; exact h.app, by rw [← hw1]; rfl⟩
  obtain ⟨u, g1, ⟨⟨t, g2⟩, g3, g3'⟩, g4⟩ := addTextN_given P (nested P depth) n c hJ hC w1 s h.inv.text.fits _ hok ht hj r hr1
  rw [hcont] at g1 g4
  obtain ⟨u', k1, k2⟩ := given_start (conc (s.chunk (packetBytes f.data)).1 (some c) []) g1
  have hstart : w1.setText n (conc (s.chunk (packetBytes f.data)).1 (some c) []) = w.setParser n (afterPacket (w.parsers n) crc s f.data) := by
    unfold setText
    rw [hp1, ← hw1, setParser_setParser]
    simp only [afterPacket, h.consumer]
  rw [hstart] at k1
  have hrn : r.parsers n = afterPacket (w.parsers n) crc s f.data := by
    have h3 : (r.parsers n).text = conc (s.chunk (packetBytes f.data)).1 (some c) [] := by rw [g4]; exact setText_text _ _ _
    rw [g2] at h3
    dsimp only at h3
    rw [g2, h3, hp1]
    simp only [afterPacket, h.consumer]
  have hru : r = u'.setParser n (afterPacket (w.parsers n) crc s f.data) := by
    rw [← hrn]
    rw [← k2] at g4
    rw [g4]
    unfold setText
    rw [setParser_get]
  have hcr : (afterPacket (w.parsers n) crc s f.data).getCrc = .ok ((packetBytes f.data).foldl Crc.updateCrc crc) := rfl
  have hcn : (afterPacket (w.parsers n) crc s f.data).consumer = some c := h.consumer
  have hnot : ∀ st a, StreamParser.notify { afterPacket (w.parsers n) crc s f.data with state := st } a = [⟨c, a⟩] := by
    intro st a
    unfold StreamParser.notify
    dsimp only
    rw [hcn]
  have one : ∀ (x : World) (a : ConsumerAction), x.consumers c = .app → tellConsumers P (nested P depth) x [⟨c, a⟩] = react P (nested P depth) (x.logAll [.consumer ⟨c, a⟩]) (.consumer ⟨c, a⟩) := by
    intro x a hx
    unfold tellConsumers
    rw [List.foldlM_cons, callConsumerN_app P _ x ⟨c, a⟩ hx]
    exact bind_pure _
  refine ⟨u', k1, by rw [hru] at g3'; exact g3', by rw [hru] at g3; exact g3, fun h0 => ?_, fun h0 h1 => ?_, fun h0 h1 => ?_⟩
  · unfold dataEnd at hr2
    rw [hrn, if_neg h0] at hr2
    rw [← hru]
    exact (returns_pure.mp hr2).symm
  · unfold dataEnd at hr2
    rw [hrn, if_pos h0, hcr, lift_ok_pure, pure_bind, if_pos h1] at hr2
    dsimp only at hr2
    rw [setParser_get, hnot] at hr2
    rw [one (r.setParser n _) .complete g3] at hr2
    rw [hru, setParser_setParser] at hr2
    exact hr2
  · unfold dataEnd at hr2
    rw [hrn, if_pos h0, hcr, lift_ok_pure, pure_bind, if_neg (by rw [h1]; decide)] at hr2
    dsimp only at hr2
    rw [setParser_get, hnot] at hr2
    rw [one (r.setParser n _) .aborted g3] at hr2
    rw [hru, setParser_setParser] at hr2
    exact hr2

/-- Whatever is called, the log only grows. -/
theorem log_stable (l : List LogEntry) : Stable (fun _ => True) (fun _ => True) (fun v => l <+: v.log) where
  log _ _ h := h.trans (List.prefix_append _ _)
  parser _ _ _ _ h := h
  engines _ _ _ h := h
  consumer _ _ _ _ _ h := h
  station _ _ _ h := h

theorem sparing_all (op : Op) : Sparing (fun _ => True) op := by
  cases op <;> simp [Sparing]

theorem react_grows (P : Program) (depth : Nat) (u : World) (e : LogEntry) (l : List LogEntry) (hu : l <+: u.log) :
    (react P (nested P depth) u e).Keeps (fun v => l <+: v.log) := by
  induction depth generalizing u e with
  | zero => exact sat_foldlM _ _ _ _ (fun op _ x _ => trivial) hu
  | succ depth ih =>
    exact sat_foldlM _ _ _ _ (fun op _ x hx => stepN_stable (log_stable l) (fun w e hw => ih w e hw) x op (sparing_all op) (naming_all op) hx) hu

/-- The entries given are in the log, in order, with what was called meanwhile between them. -/
theorem given_log {P : Program} {depth n c : Nat} {w v : World} {es : List Entry} (h : Given P (nested P depth) n c w es v) :
    ∃ gaps : List (List LogEntry), gaps.length = es.length ∧
      v.log = w.log ++ (List.zipWith (fun e g => .consumer (entryCall c e) :: g) es gaps).flatten := by
  induction h with
  | nil w => exact ⟨[], rfl, by simp⟩
  | cons w x v t e es h1 _ ih =>
    obtain ⟨gaps, g1, g2⟩ := ih
    have hx : w.log ++ [.consumer (entryCall c e)] <+: x.log := by
      unfold callConsumerN at h1
      obtain ⟨y, h3, h4⟩ := returns_bind.mp h1
      have h3 := returns_lift.mp h3
      have h5 : w.log ++ [.consumer (entryCall c e)] <+: y.log := by
        unfold callConsumer at h3
        have h0 : ((w.setText n t).logAll [.consumer (entryCall c e)]).log = w.log ++ [.consumer (entryCall c e)] := rfl
        dsimp only at h3
        split at h3
        · obtain ⟨_, -, h⟩ := bind_ok h3; cases h; exact List.prefix_refl _
        · obtain ⟨_, -, h⟩ := bind_ok h3; cases h; exact List.prefix_append _ _
        · obtain ⟨_, -, h⟩ := bind_ok h3; cases h; exact List.prefix_append _ _
        · obtain ⟨_, -, h⟩ := bind_ok h3; cases h; exact List.prefix_refl _
        · obtain ⟨_, -, h⟩ := bind_ok h3; cases h; exact List.prefix_append _ _
        · obtain ⟨_, -, h⟩ := bind_ok h3; cases h; exact List.prefix_append _ _
        · cases h3; exact List.prefix_refl _
      exact keeps_returns (sat_foldlM _ _ _ _ (fun e _ u hu => react_grows P depth u e _ hu) h5) h4
    obtain ⟨g, hg⟩ := hx
    refine ⟨g :: gaps, by simp [g1], ?_⟩
    rw [g2, ← hg]
    simp

/-- The data of the stream packets in a history. -/
def packetsOf (ops : List Op) : List Data :=
  ops.filterMap (fun | .handle f => if commandOf f = 0x21 then some f.data else none | _ => none)

/-- Data packets, and whatever else leaves parser `n` alone. -/
def Feeds (n : Nat) (op : Op) : Prop := (Sparing (· ≠ n) op ∨ AsksEngine op) ∨ ∃ f, op = .handle f ∧ commandOf f = 0x21 ∧ f.data.dlc = 8#8

theorem zip_sublist {α β : Type} (f : α → β) (es : List α) (gaps : List (List β)) (h : gaps.length = es.length) :
    (es.map f).Sublist (List.zipWith (fun e g => f e :: g) es gaps).flatten := by
  induction es generalizing gaps with
  | nil => exact List.nil_sublist _
  | cons e es ih =>
    cases gaps with
    | nil => cases h
    | cons g gaps =>
      simp only [List.map_cons, List.zipWith_cons_cons, List.flatten_cons, List.cons_append]
      exact ((ih gaps (by simpa using h)).trans (List.sublist_append_right _ _)).cons_cons _

theorem packetsOf_sparing {n : Nat} {op : Op} (h : Sparing (· ≠ n) op ∨ AsksEngine op) (ops : List Op) :
    packetsOf (op :: ops) = packetsOf ops := by
  rcases h with h | ⟨e, p, rfl⟩ | ⟨i, p, rfl⟩
  case inr.inl => rfl
  case inr.inr => rfl
  cases op with
  | handle f =>
    have hf : commandOf f ≠ 0x21 := fun hf => h hf n rfl
    simp [packetsOf, hf]
  | _ => rfl

/-- C79 for histories in the middle of a stream. The main program delivers data packets and calls anything else that leaves the parser
alone, as do the callbacks: the consumer is given the entries of all packets in order, and the parser goes on. -/
theorem C79_packets_partial (P : Program) (n : Nat) (hS : Spares P n) (depth : Nat) (w : World) (c : Nat) (s : Reader) (h : InStream w n c s)
    (crc : Crc) (hc : (w.parsers n).crc = some crc) (ops : List Op) (hops : ∀ op ∈ ops, Feeds n op)
    (hlen : 8 * (packetsOf ops).length < (w.parsers n).remaining.toNat) (v : World) (hv : (runN P depth w ops).Returns v) :
    InStream v n c (s.chunks ((packetsOf ops).map packetBytes)).1 ∧
      (v.parsers n).remaining.toNat = (w.parsers n).remaining.toNat - 8 * (packetsOf ops).length ∧
      (v.parsers n).crc = some ((payload (packetsOf ops)).foldl Crc.updateCrc crc) ∧
      ∃ added, v.log = w.log ++ added ∧
        ((s.chunks ((packetsOf ops).map packetBytes)).2.map (fun e => LogEntry.consumer (entryCall c e))).Sublist added := by
  induction ops generalizing w s crc with
  | nil =>
    cases hv
    exact ⟨h, rfl, hc, [], by simp, List.nil_sublist _⟩
  | cons op ops ih =>
    unfold runN at hv
    rw [List.foldlM_cons] at hv
    obtain ⟨x, hx, hv2⟩ := returns_bind.mp hv
    rcases hops op (List.mem_cons_self ..) with hop | ⟨f, rfl, hf, hd⟩
    · rw [packetsOf_sparing hop] at hlen ⊢
      obtain ⟨h1, h2, ⟨l, h3⟩, h4⟩ := keeps_returns (step_spares hS c w h.waiting h.registered depth op hop) hx
      have hx' : InStream x n c s := ⟨by rw [h4]; exact h.registered, by rw [h1]; exact h.waiting, by rw [h1]; exact h.consumer, h2 h.app, by rw [h1]; exact h.inv⟩
      obtain ⟨i1, i2, i3, added, i4, i5⟩ := ih x s hx' crc (by rw [h1]; exact hc) (fun o ho => hops o (List.mem_cons_of_mem _ ho)) (by rw [h1]; exact hlen) hv2
      refine ⟨i1, by rw [i2, h1], i3, l ++ added, by rw [i4, ← h3, List.append_assoc], i5.trans (List.sublist_append_right _ _)⟩
    · have hpk : packetsOf (.handle f :: ops) = f.data :: packetsOf ops := by simp [packetsOf, hf]
      rw [hpk] at hlen ⊢
      rw [List.length_cons] at hlen ⊢
      have hsub : ((w.parsers n).remaining - 8#32).toNat = (w.parsers n).remaining.toNat - 8 := by
        rw [BitVec.toNat_sub]
        have := (w.parsers n).remaining.isLt
        simp only [BitVec.toNat_ofNat]
        omega
      obtain ⟨u, k1, k2, k3, k4, -⟩ := C79_order_partial P n hS depth w c s h f hf hd crc hc x hx _ rfl
      have hrem : (afterPacket (w.parsers n) crc s f.data).remaining = (w.parsers n).remaining - 8#32 := rfl
      have hx1 := k4 (by rw [hrem]; intro h0; rw [h0] at hsub; simp at hsub; omega)
      have hxn : x.parsers n = afterPacket (w.parsers n) crc s f.data := by rw [hx1, setParser_get]
      have hx' : InStream x n c (s.chunk (packetBytes f.data)).1 := by
        refine ⟨by rw [hx1]; show u.station.callbacks.configData = _; rw [k2]; exact h.registered, by rw [hxn]; exact h.waiting, by rw [hxn]; exact h.consumer, by rw [hx1]; exact k3, ?_⟩
        rw [hxn]
        have hr : Rep (conc s (some c) []) s (some c) := by have := h.inv.text; rw [h.consumer] at this; rw [← this.eq]; exact this
        refine ⟨?_, fun h0 => by cases h0⟩
        show Rep (conc _ (w.parsers n).consumer []) _ (w.parsers n).consumer
        rw [h.consumer]
        exact rep_chunk s (some c) hr _
      obtain ⟨i1, i2, i3, added, i4, i5⟩ := ih x _ hx' ((packetBytes f.data).foldl Crc.updateCrc crc) (by rw [hxn]; rfl) (fun o ho => hops o (List.mem_cons_of_mem _ ho)) (by rw [hxn, hrem, hsub]; omega) hv2
      obtain ⟨gaps, g1, g2⟩ := given_log k1
      refine ⟨i1, by rw [i2, hxn, hrem, hsub]; omega, by rw [i3, payload_cons, List.foldl_append],
        (List.zipWith (fun e g => .consumer (entryCall c e) :: g) (s.chunk (packetBytes f.data)).2 gaps).flatten ++ added, ?_, ?_⟩
      · rw [i4, hx1]
        show u.log ++ added = _
        rw [g2, List.append_assoc]
        rfl
      · rw [List.map_cons, Reader.chunks, List.map_append]
        exact (zip_sublist _ _ gaps g1).append i5

theorem chunks_append (s : Reader) (a b : List (List Byte)) :
    s.chunks (a ++ b) = (((s.chunks a).1.chunks b).1, (s.chunks a).2 ++ ((s.chunks a).1.chunks b).2) := by
  induction a generalizing s with
  | nil => simp [Reader.chunks]
  | cons l a ih => simp only [List.cons_append, Reader.chunks, ih, List.append_assoc]

/-- C79 for whole streams. With the last data packet, the consumer has been given all entries in order and is then told how the stream
ended, whatever callbacks do at the end. -/
theorem C79_stream_partial (P : Program) (n : Nat) (hS : Spares P n) (depth : Nat) (w : World) (c : Nat) (s : Reader) (h : InStream w n c s)
    (crc : Crc) (hc : (w.parsers n).crc = some crc) (ops : List Op) (hops : ∀ op ∈ ops, Feeds n op) (last : CanFrame)
    (hl : commandOf last = 0x21) (hd : last.data.dlc = 8#8) (ds : List Data) (hds : ds = packetsOf ops ++ [last.data])
    (hlen : 8 * ds.length = (w.parsers n).remaining.toNat) (v : World) (hv : (runN P depth w (ops ++ [.handle last])).Returns v) :
    ∃ added, v.log = w.log ++ added ∧
      ((s.chunks (ds.map packetBytes)).2.map (fun e => LogEntry.consumer (entryCall c e)) ++
        [LogEntry.consumer ⟨c, if ((payload ds).foldl Crc.updateCrc crc).isCrcValid then .complete else .aborted⟩]).Sublist added := by
  subst hds
  rw [List.length_append, List.length_singleton] at hlen
  unfold runN at hv
  rw [List.foldlM_append] at hv
  obtain ⟨x, hx, hv⟩ := returns_bind.mp hv
  obtain ⟨i1, i2, i3, added, i4, i5⟩ := C79_packets_partial P n hS depth w c s h crc hc ops hops (by omega) x hx
  rw [List.foldlM_cons] at hv
  have hv : (stepN P (nested P depth) x (.handle last) >>= fun y => pure y).Returns v := hv
  rw [bind_pure] at hv
  obtain ⟨u, k1, k2, k3, -, k4, k5⟩ := C79_order_partial P n hS depth x c _ i1 last hl hd _ i3 v hv _ rfl
  have hrem : (afterPacket (x.parsers n) ((payload (packetsOf ops)).foldl Crc.updateCrc crc) (s.chunks ((packetsOf ops).map packetBytes)).1 last.data).remaining = 0#32 := by
    show (x.parsers n).remaining - 8#32 = 0#32
    apply BitVec.eq_of_toNat_eq
    rw [BitVec.toNat_sub, i2]
    have := (w.parsers n).remaining.isLt
    simp only [BitVec.toNat_ofNat]
    omega
  obtain ⟨gaps, g1, g2⟩ := given_log k1
  have hcrc : (packetBytes last.data).foldl Crc.updateCrc ((payload (packetsOf ops)).foldl Crc.updateCrc crc) = (payload (packetsOf ops ++ [last.data])).foldl Crc.updateCrc crc := by
    rw [← payload_flatten (packetsOf ops ++ [last.data]), ← payload_flatten, List.map_append, List.flatten_append, List.foldl_append]
    simp
  rw [hcrc] at k4 k5
  have key : ∀ a, (u.log ++ [.consumer ⟨c, a⟩] <+: v.log) → ∃ added, v.log = w.log ++ added ∧
      ((s.chunks ((packetsOf ops ++ [last.data]).map packetBytes)).2.map (fun e => LogEntry.consumer (entryCall c e)) ++ [LogEntry.consumer ⟨c, a⟩]).Sublist added := by
    rintro a ⟨l, hl⟩
    refine ⟨added ++ (List.zipWith (fun e g => .consumer (entryCall c e) :: g) ((s.chunks ((packetsOf ops).map packetBytes)).1.chunk (packetBytes last.data)).2 gaps).flatten ++ ([.consumer ⟨c, a⟩] ++ l), ?_, ?_⟩
    · rw [← hl, g2]
      show (x.log ++ _) ++ _ ++ _ = _
      rw [i4]
      simp only [List.append_assoc]
    · rw [List.map_append, chunks_append, List.map_append]
      refine List.Sublist.append (List.Sublist.append i5 ?_) (List.sublist_append_left _ _)
      rw [List.map_cons, List.map_nil, Reader.chunks, Reader.chunks, List.append_nil]
      exact zip_sublist _ _ gaps g1
  split
  · next hcv => exact key _ (keeps_returns (react_grows P depth _ _ _ (List.prefix_refl _)) (k4 hrem hcv))
  · next hcv => exact key _ (keeps_returns (react_grows P depth _ _ _ (List.prefix_refl _)) (k5 hrem (by simpa using hcv)))

/-- C79. A consumer that delivers the next packet while it is given an entry: the text of the first packet is parsed again behind the
second, so entries come twice or are garbled, and the stream is aborted twice. -/
theorem C79_pumped : outline (runN (fun w e => match e with
      | .consumer ⟨7, .consume ..⟩ => (if (w.log.filter (fun | .consumer _ => true | _ => false)).length = 1 then [.handle (packet 8#8 (str ".c=\n.d=\n"))] else [])
      | _ => []) 1 demoWorld (demoOps.take 4)) =
    some ⟨[.entry 7 (str "a") [], .entry 7 (str "a") (str ".a="), .entry 7 (str "b") [], .entry 7 (str "c") [], .entry 7 (str "d") [], .aborted 7, .aborted 7], .IDLE, some 0⟩ := by
  decide +kernel

/-- A consumer that sends a command, uses another parser and requests an engine at each entry. -/
def busyConsumer : Program := fun _ e =>
  match e with
  | .consumer ⟨7, .consume ..⟩ => [.sendGo, .parserStart 1 (some 8), .requestEngine 3 (some 1)]
  | _ => []

/-- It leaves parser 0 alone, and the demonstration ends as usual: all entries in order, then the end (the checksum is wrong). -/
example : Spares busyConsumer 0 ∧ Feeds 0 .sendStop ∧ Feeds 0 (.requestEngine 3 none) ∧
    outline (runN busyConsumer 1 demoWorld demoOps) =
      some ⟨[.entry 7 (str "a") [], .entry 7 (str "b") [], .entry 7 (str "c") [], .entry 7 (str "d") [], .aborted 7], .IDLE, some 0⟩ := by
  refine ⟨?_, Or.inl (Or.inl trivial), Or.inl (Or.inr (Or.inl ⟨3, none, rfl⟩)), by decide +kernel⟩
  intro u l _ op hop
  unfold busyConsumer at hop
  split at hop
  · simp only [List.mem_cons, List.not_mem_nil, or_false] at hop
    rcases hop with rfl | rfl | rfl
    · exact Or.inl trivial
    · exact Or.inl (by decide : (1 : Nat) ≠ 0)
    · exact Or.inr (Or.inl ⟨3, some 1, rfl⟩)
  · cases hop

/-! ## C78: requests for engines -/

theorem given_engine {P : Program} {depth n m x c c' : Nat} (hm : m ≠ n)
    (hP : ∀ u e, P u (.consumer (entryCall c e)) = [.requestEngine x (some m), .parserStart m (some c')]) {w v : World} {es : List Entry}
    (h : Given P (nested P (depth + 1)) n c w es v) (hr : w.station.callbacks.configData = some n)
    (hs : (w.parsers n).state = .WAITING_DATA_PACKET) (ha : w.consumers c = .app) :
    v.log = w.log ++ es.map (fun e => .consumer (entryCall c e)) ∧ (v.parsers m).state = (w.parsers m).state := by
  induction h with
  | nil w => exact ⟨by simp, rfl⟩
  | cons w y v t e es h1 _ ih =>
    have hw1 : ((w.setText n t).parsers n).state = .WAITING_DATA_PACKET := by
      unfold setText; rw [setParser_get]; exact hs
    have hmt : ((w.setText n t).parsers m) = w.parsers m := by
      simp [setText, setParser, hm]
    have e1 : callConsumerN P (nested P (depth + 1)) (w.setText n t) (entryCall c e) =
        pure (((w.setText n t).logAll [.consumer (entryCall c e)]).setParser m ((w.parsers m).startStreamConsumer (some c'))) := by
      rw [callConsumerN_app P _ _ _ (by exact ha)]
      unfold react
      rw [hP, List.foldlM_cons]
      show (stepN P (nested P depth) _ (.requestEngine x (some m)) >>= _ : Run World) = _
      rw [asksEngine_ignored P _ ((w.setText n t).logAll [.consumer (entryCall c e)]) n hr hw1 _ (Or.inl ⟨x, some m, rfl⟩), pure_bind, ← hmt]
      rfl
    rw [e1] at h1
    have hy := (returns_pure.mp h1)
    subst hy
    obtain ⟨i1, i2⟩ := ih hr (by simp only [setParser]; rw [if_neg (Ne.symm hm)]; exact hw1) ha
    refine ⟨?_, ?_⟩
    · rw [i1]
      show (w.log ++ [_]) ++ _ = _
      simp
    · rw [i2, setParser_get]
      rfl

/-- C78 is also false for requests for an engine, for every parser. A consumer that, while it is given entries, requests an engine and
attaches a consumer to another parser is not answered: nothing is sent, the request is not registered, the other parser is not started,
and the stream goes on as if nothing had been requested. -/
theorem C78_engine (P : Program) (depth : Nat) (w : World) (n m x c c' : Nat) (hm : m ≠ n) (s : Reader) (h : InStream w n c s) (f : CanFrame)
    (hf : commandOf f = 0x21) (hd : f.data.dlc = 8#8) (crc : Crc) (hc : (w.parsers n).crc = some crc)
    (hrem : (w.parsers n).remaining ≠ 8#32)
    (hP : ∀ u e, P u (.consumer (entryCall c e)) = [.requestEngine x (some m), .parserStart m (some c')])
    (hQ : ∀ u l, (∀ e, l ≠ .consumer (entryCall c e)) → P u l = [])
    (v : World) (hv : (stepN P (nested P (depth + 1)) w (.handle f)).Returns v) :
    v.log = w.log ++ (s.chunk (packetBytes f.data)).2.map (fun e => .consumer (entryCall c e)) ∧ v.station = w.station ∧
      (v.parsers m).state = (w.parsers m).state ∧ InStream v n c (s.chunk (packetBytes f.data)).1 := by
  have hS : Spares P n := by
    intro u l _ op hop
    by_cases hl : ∃ e, l = .consumer (entryCall c e)
    · obtain ⟨e, rfl⟩ := hl
      rw [hP] at hop
      simp only [List.mem_cons, List.not_mem_nil, or_false] at hop
      rcases hop with rfl | rfl
      · exact Or.inr (Or.inl ⟨_, _, rfl⟩)
      · exact Or.inl hm
    · rw [hQ u l (fun e he => hl ⟨e, he⟩)] at hop
      cases hop
  have hrem' : (w.parsers n).remaining - 8#32 ≠ 0#32 := by
    intro h0
    apply hrem
    generalize (w.parsers n).remaining = r at h0
    have h1 := congrArg BitVec.toNat h0
    rw [BitVec.toNat_sub] at h1
    apply BitVec.eq_of_toNat_eq
    simp only [BitVec.toNat_ofNat] at h1 ⊢
    omega
  obtain ⟨u, k1, k2, k3, k4, -⟩ := C79_order_partial P n hS (depth + 1) w c s h f hf hd crc hc v hv _ rfl
  have hvu := k4 hrem'
  have g := given_engine hm hP k1 h.registered (by rw [setParser_get]; exact h.waiting) h.app
  refine ⟨?_, ?_, ?_, ?_⟩
  · rw [hvu]; exact g.1
  · rw [hvu]; exact k2
  · rw [hvu]
    simp only [setParser]
    rw [if_neg hm, g.2]
    simp [setParser, hm]
  · have hvn : v.parsers n = afterPacket (w.parsers n) crc s f.data := by rw [hvu, setParser_get]
    refine ⟨by rw [hvu]; show u.station.callbacks.configData = _; rw [k2]; exact h.registered, by rw [hvn]; exact h.waiting, by rw [hvn]; exact h.consumer, by rw [hvu]; exact k3, ?_⟩
    rw [hvn]
    have hr : Rep (conc s (some c) []) s (some c) := by have := h.inv.text; rw [h.consumer] at this; rw [← this.eq]; exact this
    refine ⟨?_, fun h0 => by cases h0⟩
    show Rep (conc _ (w.parsers n).consumer []) _ (w.parsers n).consumer
    rw [h.consumer]
    exact rep_chunk s (some c) hr _

/-- The demonstration with a consumer that requests an engine at each entry: it is given all entries, and the other parser stays idle. -/
example : (runN (fun _ e => match e with | .consumer ⟨7, .consume ..⟩ => [.requestEngine 3 (some 1), .parserStart 1 (some 8)] | _ => []) 1 demoWorld demoOps).run.isSome = true ∧
    outline (runN (fun _ e => match e with | .consumer ⟨7, .consume ..⟩ => [.requestEngine 3 (some 1), .parserStart 1 (some 8)] | _ => []) 1 demoWorld demoOps) =
      some ⟨[.entry 7 (str "a") [], .entry 7 (str "b") [], .entry 7 (str "c") [], .entry 7 (str "d") [], .aborted 7], .IDLE, some 0⟩ := by
  decide +kernel

end World

end RR32
