import Verif.Props.Loopback
import Verif.Proofs.World

/-! # C17, C23: histories of station calls -/

set_option autoImplicit false

namespace RR32

/-! ## C17 -/

namespace Spec

/-- The arguments of a `begin`. -/
def beginOf : Op → Option (U16 × Callbacks)
  | .begin_ uuid cbs => some (uuid, cbs)
  | _ => none

/-- The arguments of the most recent `begin` in a history. -/
def lastBegin : List Op → Option (U16 × Callbacks)
  | [] => none
  | op :: ops => (lastBegin ops).or (beginOf op)

/-- What every frame transmitted by a call must satisfy. `SendPacket` is handed a complete frame and fills in the hash only. -/
def TxFrame (op : Op) (hash : Nat) (f : CanFrame) : Prop :=
  match op with
  | .sendPacket g =>
      f.data = g.data ∧ f.id.raw.toNat / 2 ^ 16 = g.id.raw.toNat / 2 ^ 16 ∧ f.id.raw.toNat % 2 ^ 16 = hash
  | _ => f.id.getPriority.toNat = 0 ∧ f.id.isResponse = false ∧ f.id.getHash.toNat = hash ∧ f.data.dlc.toNat ≤ 8 ∧
      f.id.raw.toNat < 2 ^ 29

end Spec

theorem SentFrame.wellFormed {f : CanFrame} {hash : U16} {command dlc : Nat} (h : SentFrame f hash command dlc) :
    f.id.getPriority.toNat = 0 ∧ f.id.isResponse = false ∧ f.id.getHash.toNat = hash.toNat ∧ f.data.dlc.toNat ≤ 8 ∧
      f.id.raw.toNat < 2 ^ 29 := by
  refine ⟨h.priority, h.isResponse, by rw [h.getHash], by rw [h.length]; exact h.length_le, ?_⟩
  have := h.raw
  have := hash.isLt
  have hc : command < 256 := by rw [← h.getCommand]; exact f.id.getCommand.isLt
  omega

/-- All transmissions among `calls` go to the station's tx callback and satisfy `P`. -/
def TxOk (s : Station) (P : CanFrame → Prop) (calls : List Call) : Prop :=
  ∀ cb f, Call.tx cb f ∈ calls → s.callbacks.tx = some cb ∧ P f

theorem TxOk.nil (s : Station) (P : CanFrame → Prop) : TxOk s P [] := by intro _ _ h; cases h

theorem TxOk.append {s : Station} {P : CanFrame → Prop} {a b : List Call} (ha : TxOk s P a) (hb : TxOk s P b) :
    TxOk s P (a ++ b) := by
  intro cb f h
  rcases List.mem_append.mp h with h | h
  · exact ha cb f h
  · exact hb cb f h

theorem TxOk.resets (s : Station) (P : CanFrame → Prop) (o : Option Nat) : TxOk s P (o.toList.map .cfgReset) := by
  intro cb f h
  obtain ⟨_, _, h⟩ := List.mem_map.mp h
  cases h

theorem TxOk.starts (s : Station) (P : CanFrame → Prop) (o : Option Nat) :
    TxOk s P (match o with | none => [] | some cb => [Call.cfgStart cb]) := by
  intro cb f h
  cases o with
  | none => cases h
  | some n => cases List.mem_singleton.mp h

theorem txSend_ok {s t : Station} {P : CanFrame → Prop} {f : CanFrame} {calls : List Call} (h : s.txSend f = .ok calls)
    (ht : s.callbacks.tx = t.callbacks.tx) (hP : P f) : TxOk t P calls := by
  unfold Station.txSend at h
  cases hc : s.callbacks.tx with
  | none => rw [hc] at h; cases h
  | some cb =>
    rw [hc] at h
    injection h with h
    subst h
    intro cb' f' hm
    have := List.mem_singleton.mp hm
    injection this with h1 h2
    subst h1 h2
    exact ⟨ht.symm.trans hc, hP⟩

/-- The hash and the tx callback of a station. -/
def Station.SameTx (s t : Station) : Prop := s.senderHash = t.senderHash ∧ s.callbacks.tx = t.callbacks.tx

theorem requestEngineList_null (s : Station) (off : Byte) (p : Option Nat) (htx : s.callbacks.tx = none) :
    s.RequestEngineList off p = .error .nullDeref := by
  obtain ⟨f1, f2, h2, -⟩ := C20_request_engine_list { s with callbacks := { s.callbacks with tx := some 0 } } 0 rfl off p
  simp only [Station.RequestEngineList, Station.AbortCurrentConfigRequest, finish_eq, bind, Except.bind, Station.txSend,
    htx] at h2 ⊢
  split
  · next e1 => simp [e1] at h2
  · next m1 e1 =>
    simp only [e1] at h2
    split
    · next e2 => simp [e2] at h2
    · next m2 e2 =>
      simp only [e2] at h2
      split
      · rfl
      · next hc =>
        rw [if_neg hc] at h2
        injection h2 with h2
        injection h2 with _ h2
        have := congrArg List.length h2
        simp at this

theorem requestEngineList_tx (s s' : Station) (off : Byte) (p : Option Nat) (calls : List Call)
    (h : s.RequestEngineList off p = .ok (s', calls)) :
    s'.SameTx s ∧ TxOk s (fun f => ∃ c n, SentFrame f s.senderHash c n) calls := by
  have htx : s.callbacks.tx = none ∨ ∃ cb, s.callbacks.tx = some cb := by cases s.callbacks.tx <;> simp
  rcases htx with htx | ⟨cb, htx⟩
  · rw [requestEngineList_null s off p htx] at h; cases h
  · obtain ⟨f1, f2, h2, s1, -, s2, -⟩ := C20_request_engine_list s cb htx off p
    rw [h] at h2
    injection h2 with h2
    injection h2 with ha hb
    subst ha hb
    refine ⟨⟨rfl, rfl⟩, ((TxOk.resets _ _ _).append ?_).append ?_⟩
    · intro cb f h
      obtain ⟨_, _, h⟩ := List.mem_map.mp h
      cases h
    · intro cb' f hm
      simp only [List.mem_cons, Call.tx.injEq, List.not_mem_nil, or_false] at hm
      rcases hm with ⟨h1, h2⟩ | ⟨h1, h2⟩
      · subst h1 h2; exact ⟨htx, _, _, s1⟩
      · subst h1 h2; exact ⟨htx, _, _, s2⟩

theorem requestEngine_tx (s s' : Station) (processing : Bool) (i : ShortInfo) (p : Option Nat) (calls : List Call)
    (h : s.RequestEngine processing i p = .ok (s', calls)) :
    s'.SameTx s ∧ TxOk s (fun f => ∃ c n, SentFrame f s.senderHash c n) calls := by
  unfold Station.RequestEngine at h
  split at h
  · injection h with h; injection h with h1 h2; subst h1 h2
    exact ⟨⟨rfl, rfl⟩, TxOk.nil _ _⟩
  · split at h
    · injection h with h; injection h with h1 h2; subst h1 h2
      exact ⟨⟨rfl, rfl⟩, TxOk.nil _ _⟩
    · simp only [Station.AbortCurrentConfigRequest, finish_eq] at h
      obtain ⟨m1, _, h⟩ := bind_ok h
      obtain ⟨t1, ht1, h⟩ := bind_ok h
      obtain ⟨n, _, h⟩ := bind_ok h
      obtain ⟨m2, _, h⟩ := bind_ok h
      obtain ⟨t2, ht2, h⟩ := bind_ok h
      obtain ⟨d3, hd3, h⟩ := bind_ok h
      obtain ⟨t3, ht3, h⟩ := bind_ok h
      injection h with h; injection h with h1 h2; subst h1 h2
      have hraw : (Identifier.mk' kRequestConfigData s.senderHash).raw.toNat = 0x20 * 2 ^ 17 + s.senderHash.toNat :=
        C01_construct _ _
      have h3 : d3.dlc = 8#8 := by
        split at hd3
        · obtain ⟨m3, _, hd3⟩ := bind_ok hd3
          injection hd3 with hd3; subst hd3; rfl
        · injection hd3 with hd3; subst hd3; rfl
      refine ⟨⟨rfl, rfl⟩, ((((TxOk.resets _ _ _).append (TxOk.starts _ _ _)).append ?_).append ?_).append ?_⟩
      · exact txSend_ok ht1 rfl ⟨0x20, 8, sentFrame_intro (by decide) hraw rfl (by decide)⟩
      · exact txSend_ok ht2 rfl ⟨0x20, 8, sentFrame_intro (by decide) hraw rfl (by decide)⟩
      · exact txSend_ok ht3 rfl ⟨0x20, 8, sentFrame_intro (by decide) hraw (by show d3.dlc.toNat = 8; rw [h3]; rfl) (by decide)⟩

namespace World

/-- New entries of the log, as seen by the station's transmissions. -/
def NewTx (w w' : World) (P : Nat → CanFrame → Prop) : Prop :=
  ∃ new, w'.log = w.log ++ new ∧ ∀ cb f, LogEntry.call (.tx cb f) ∈ new → P cb f

theorem stationCalls_tx (w w' : World) (r : Res (List Call)) (P : CanFrame → Prop)
    (hr : ∀ calls, r = .ok calls → TxOk w.station P calls) (h : w.stationCalls r = .ok w') :
    w'.station = w.station ∧ NewTx w w' (fun cb f => w.station.callbacks.tx = some cb ∧ P f) := by
  obtain ⟨calls, h1, h2⟩ := bind_ok h
  obtain ⟨hs, _, l, hl, hn⟩ := runCalls_log w w' calls h2
  refine ⟨hs, l, hl, ?_⟩
  intro cb f hm
  rcases hn _ hm with hq | ⟨c, hc, he⟩
  · exact hq.elim
  · injection he with he
    subst he
    exact hr calls h1 cb f hc

theorem stationUpdate_tx (w w' : World) (r : Res (Station × List Call)) (P : CanFrame → Prop)
    (hr : ∀ s calls, r = .ok (s, calls) → s.SameTx w.station ∧ TxOk w.station P calls) (h : w.stationUpdate r = .ok w') :
    w'.station.SameTx w.station ∧ NewTx w w' (fun cb f => w.station.callbacks.tx = some cb ∧ P f) := by
  obtain ⟨⟨s, calls⟩, h1, h2⟩ := bind_ok h
  obtain ⟨hs, _, l, hl, hn⟩ := runCalls_log _ w' calls h2
  have := hr s calls h1
  refine ⟨by rw [hs]; exact this.1, l, hl, ?_⟩
  intro cb f hm
  rcases hn _ hm with hq | ⟨c, hc, he⟩
  · exact hq.elim
  · injection he with he
    subst he
    exact this.2 cb f hc

theorem quiet_tx {w w' : World} (P : Nat → CanFrame → Prop) (h : Quiet w w') : w'.station.SameTx w.station ∧ NewTx w w' P := by
  obtain ⟨hs, _, l, hl, hn⟩ := h
  exact ⟨by rw [hs]; exact ⟨rfl, rfl⟩, l, hl, fun cb f hm => (hn _ hm).elim⟩

/-- One step: where the station's hash and tx callback come from, and what is transmitted. -/
theorem step_tx (w w' : World) (op : Op) (h : w.step op = .ok w') :
    (match op with
      | .begin_ uuid cbs => w'.station.senderHash.toNat = uuid.toNat / 2 ^ 11 * 2 ^ 8 + uuid.toNat % 2 ^ 7 ∧
          w'.station.callbacks.tx = cbs.tx
      | _ => w'.station.SameTx w.station) ∧
    NewTx w w' (fun cb f => w.station.callbacks.tx = some cb ∧ Spec.TxFrame op w.station.senderHash.toNat f) := by
  have wf : ∀ (s : Station) (calls : List Call), TxOk s (fun f => ∃ c n, SentFrame f s.senderHash c n) calls →
      TxOk s (fun f => f.id.getPriority.toNat = 0 ∧ f.id.isResponse = false ∧ f.id.getHash.toNat = s.senderHash.toNat ∧
        f.data.dlc.toNat ≤ 8 ∧ f.id.raw.toNat < 2 ^ 29) calls := by
    intro s calls h cb f hm
    obtain ⟨h1, _, _, h2⟩ := h cb f hm
    exact ⟨h1, h2.wellFormed⟩
  have same : ∀ {w'' : World}, w''.station = w.station → w''.station.SameTx w.station := fun h => by rw [h]; exact ⟨rfl, rfl⟩
  have one : ∀ (f : CanFrame) (n : Nat) (c : Byte), f.id = Identifier.mk' c w.station.senderHash → f.data.dlc.toNat = n → n ≤ 8 →
      ∀ calls, w.station.txSend f = .ok calls → TxOk w.station (fun f => f.id.getPriority.toNat = 0 ∧ f.id.isResponse = false ∧
        f.id.getHash.toNat = w.station.senderHash.toNat ∧ f.data.dlc.toNat ≤ 8 ∧ f.id.raw.toNat < 2 ^ 29) calls := by
    intro f n c hi hd hn calls hc
    refine txSend_ok hc rfl (sentFrame_intro c.isLt ?_ hd hn).wellFormed
    rw [hi]; exact C01_construct _ _
  have sp : ∀ (f : CanFrame) (c n : Nat), BuiltFrame f c false n → ∀ calls, w.station.SendPacket f = .ok calls →
      TxOk w.station (fun f => f.id.getPriority.toNat = 0 ∧ f.id.isResponse = false ∧
        f.id.getHash.toNat = w.station.senderHash.toNat ∧ f.data.dlc.toNat ≤ 8 ∧ f.id.raw.toNat < 2 ^ 29) calls :=
    fun f c n hb calls hc => txSend_ok hc rfl (setHash_built hb w.station.senderHash).wellFormed
  have fin : ∀ P, w.station.FinishCurrentConfigRequest.1.SameTx w.station ∧
      TxOk w.station P w.station.FinishCurrentConfigRequest.2 := by
    intro P
    rw [finish_eq]
    exact ⟨⟨rfl, rfl⟩, TxOk.resets _ _ _⟩
  have lit : ∀ (v : World), v.station = w.station → v.log = w.log → v.station.SameTx w.station ∧
      ∀ P, NewTx w v P := by
    intro v h1 h2
    exact ⟨same h1, fun P => ⟨[], by rw [h2]; simp, by intro _ _ h; cases h⟩⟩
  cases op with
  | begin_ uuid cbs =>
    obtain ⟨⟨s, calls⟩, h1, h2⟩ := bind_ok h
    obtain ⟨hs, _, l, hl, hn⟩ := runCalls_log _ w' calls h2
    injection h1 with h1
    have e1 : s = (w.station.begin_ uuid cbs).1 := by rw [h1]
    have e2 : calls = w.station.FinishCurrentConfigRequest.2 := by
      have : calls = (w.station.begin_ uuid cbs).2 := by rw [h1]
      exact this
    have hs' : w'.station = (w.station.begin_ uuid cbs).1 := by rw [hs]; exact e1
    refine ⟨by rw [hs']; exact ⟨(C04_begin _ _ _).1, rfl⟩, l, hl, ?_⟩
    intro cb f hm
    rcases hn _ hm with hq | ⟨c, hc, he⟩
    · exact hq.elim
    · injection he with he
      subst he
      rw [e2] at hc
      exact (fin _).2 cb f hc
  | handle f =>
    obtain ⟨hs, l, hl, hn⟩ := C14_receive_is_passive w w' f h
    exact ⟨same hs, l, hl, fun cb g hm => (hn cb g hm).elim⟩
  | finish =>
    exact stationUpdate_tx w w' _ _ (fun s calls hr => by injection hr with hr; have := fin (Spec.TxFrame .finish w.station.senderHash.toNat); rw [hr] at this; exact this) h
  | abort =>
    exact stationUpdate_tx w w' _ _ (fun s calls hr => by injection hr with hr; have := fin (Spec.TxFrame .abort w.station.senderHash.toNat); rw [Station.AbortCurrentConfigRequest] at hr; rw [hr] at this; exact this) h
  | notifyReceived =>
    exact stationUpdate_tx w w' _ _ (fun s calls hr => by injection hr with hr; have := fin (Spec.TxFrame .notifyReceived w.station.senderHash.toNat); rw [Station.notifyConfigStreamReceived] at hr; rw [hr] at this; exact this) h
  | requestEngine e p =>
    exact stationUpdate_tx w w' _ _ (fun s calls hr => ⟨(requestEngine_tx _ _ _ _ _ _ hr).1, wf _ _ (requestEngine_tx _ _ _ _ _ _ hr).2⟩) h
  | requestShortInfo i p =>
    exact stationUpdate_tx w w' _ _ (fun s calls hr => ⟨(requestEngine_tx _ _ _ _ _ _ hr).1, wf _ _ (requestEngine_tx _ _ _ _ _ _ hr).2⟩) h
  | requestEngineList off p =>
    exact stationUpdate_tx w w' _ _ (fun s calls hr => ⟨(requestEngineList_tx _ _ _ _ _ hr).1, wf _ _ (requestEngineList_tx _ _ _ _ _ hr).2⟩) h
  | requestDirection e =>
    obtain ⟨hs, hn⟩ := stationCalls_tx w w' _ _ (one _ 4 kLocoDirection rfl rfl (by decide)) h
    exact ⟨same hs, hn⟩
  | sendDirection e d =>
    obtain ⟨hs, hn⟩ := stationCalls_tx w w' _ (Spec.TxFrame (.sendDirection e d) w.station.senderHash.toNat) (by
      intro calls hc
      unfold Station.SendEngineDirection at hc
      split at hc
      · exact sp _ _ _ (C10_loco false e.uid 0#16 d 0#8 false).2.1.1 calls hc
      · injection hc with hc; subst hc; exact TxOk.nil _ _) h
    exact ⟨same hs, hn⟩
  | requestVelocity e =>
    obtain ⟨hs, hn⟩ := stationCalls_tx w w' _ _ (one _ 4 kLocoSpeed rfl rfl (by decide)) h
    exact ⟨same hs, hn⟩
  | sendVelocity e v =>
    obtain ⟨hs, hn⟩ := stationCalls_tx w w' _ _ (sp _ _ _ (C10_loco false e.uid v 0#32 0#8 false).1.1) h
    exact ⟨same hs, hn⟩
  | requestFunction e f =>
    obtain ⟨hs, hn⟩ := stationCalls_tx w w' _ _ (one _ 5 kLocoFunction rfl rfl (by decide)) h
    exact ⟨same hs, hn⟩
  | requestAllFunctions e =>
    obtain ⟨hs, hn⟩ := stationCalls_tx w w' _ (Spec.TxFrame (.requestAllFunctions e) w.station.senderHash.toNat) (by
      intro calls hc
      cases htx : w.station.callbacks.tx with
      | none => simp [Station.RequestEngineAllFunctions, Station.allFunctionsLoop, Station.txSend, htx, bind, Except.bind] at hc
      | some cb =>
        obtain ⟨frames, hall, hfr⟩ := C22_all_functions w.station cb htx e
        rw [hall] at hc
        injection hc with hc
        subst hc
        intro cb' f hm
        obtain ⟨k, hk, heq⟩ := List.mem_map.mp hm
        injection heq with h1 h2
        subst h1 h2
        exact ⟨htx, (hfr k (List.mem_range.mp hk)).2.1.wellFormed⟩) h
    exact ⟨same hs, hn⟩
  | sendFunction e f v =>
    obtain ⟨hs, hn⟩ := stationCalls_tx w w' _ _ (sp _ _ _ (C10_loco false e.uid 0#16 0#32 f v).2.2.1) h
    exact ⟨same hs, hn⟩
  | sendEmergencyStop e =>
    obtain ⟨hs, hn⟩ := stationCalls_tx w w' _ _ (one _ 5 kSystemCommand rfl rfl (by decide)) h
    exact ⟨same hs, hn⟩
  | sendStop =>
    obtain ⟨hs, hn⟩ := stationCalls_tx w w' _ _ (one _ 5 kSystemCommand rfl rfl (by decide)) h
    exact ⟨same hs, hn⟩
  | sendGo =>
    obtain ⟨hs, hn⟩ := stationCalls_tx w w' _ _ (one _ 5 kSystemCommand rfl rfl (by decide)) h
    exact ⟨same hs, hn⟩
  | sendAccessory a p d pw =>
    obtain ⟨hs, hn⟩ := stationCalls_tx w w' _ _ (one _ 6 kAccessorySwitch rfl rfl (by decide)) h
    exact ⟨same hs, hn⟩
  | sendPacket f =>
    obtain ⟨hs, hn⟩ := stationCalls_tx w w' _ (Spec.TxFrame (.sendPacket f) w.station.senderHash.toNat) (by
      intro calls hc
      refine txSend_ok hc rfl ⟨rfl, ?_, ?_⟩
      · show (f.id.setHash w.station.senderHash).raw.toNat / _ = _
        rw [(C01_setters f.id w.station.senderHash 0#8 false).1]
        have := w.station.senderHash.isLt
        omega
      · show (f.id.setHash w.station.senderHash).raw.toNat % _ = _
        rw [(C01_setters f.id w.station.senderHash 0#8 false).1]
        have := w.station.senderHash.isLt
        omega) h
    exact ⟨same hs, hn⟩
  | parserStart n c => injection h with h; subst h; exact ⟨(lit _ rfl rfl).1, (lit _ rfl rfl).2 _⟩
  | parserStartStream n => injection h with h; subst h; exact ⟨(lit _ rfl rfl).1, (lit _ rfl rfl).2 _⟩
  | parserAdd n d => exact quiet_tx _ (parserAdd_quiet _ _ _ _ h)
  | parserReset n => exact quiet_tx _ (parserReset_quiet _ _ _ h)
  | setEngine c e =>
    simp only [step] at h
    split at h <;> injection h with h <;> subst h <;> exact ⟨(lit _ rfl rfl).1, (lit _ rfl rfl).2 _⟩
  | setEndCallback c e =>
    simp only [step] at h
    split at h <;> injection h with h <;> subst h <;> exact ⟨(lit _ rfl rfl).1, (lit _ rfl rfl).2 _⟩
  | setStreamOffset c e =>
    simp only [step] at h
    split at h <;> injection h with h <;> subst h <;> exact ⟨(lit _ rfl rfl).1, (lit _ rfl rfl).2 _⟩
  | clearTable c =>
    simp only [step] at h
    split at h <;> injection h with h <;> subst h <;> exact ⟨(lit _ rfl rfl).1, (lit _ rfl rfl).2 _⟩
  | resetList c =>
    simp only [step] at h
    split at h <;> injection h with h <;> subst h <;> exact ⟨(lit _ rfl rfl).1, (lit _ rfl rfl).2 _⟩
  | setName e n =>
    obtain ⟨l, _, h⟩ := bind_ok h
    injection h with h; subst h; exact ⟨(lit _ rfl rfl).1, (lit _ rfl rfl).2 _⟩
  | assignEngine e l => injection h with h; subst h; exact ⟨(lit _ rfl rfl).1, (lit _ rfl rfl).2 _⟩

end World

/-- In every history that begins with a station that was never begun, every frame transmitted by the next call is well-formed, has the
hash that belongs to the UUID of the most recent `begin`, and goes to the tx callback given to it. -/
theorem C17_transmissions (w0 w w' : World) (h0 : w0.station = {}) (ops : List Op) (op : Op)
    (h : w0.run ops = .ok w) (hs : w.step op = .ok w') :
    ∃ new, w'.log = w.log ++ new ∧ ∀ cb f, LogEntry.call (.tx cb f) ∈ new →
      ∃ uuid cbs, Spec.lastBegin ops = some (uuid, cbs) ∧ cbs.tx = some cb ∧
        Spec.TxFrame op (uuid.toNat / 2 ^ 11 * 2 ^ 8 + uuid.toNat % 2 ^ 7) f := by
  have key : ∀ (ops : List Op) (w0 : World) (b : Option (U16 × Callbacks)),
      (match b with
        | none => w0.station.callbacks.tx = none
        | some (u, c) => w0.station.senderHash.toNat = u.toNat / 2 ^ 11 * 2 ^ 8 + u.toNat % 2 ^ 7 ∧ w0.station.callbacks.tx = c.tx) →
      ∀ w, w0.run ops = .ok w →
      (match (Spec.lastBegin ops).or b with
        | none => w.station.callbacks.tx = none
        | some (u, c) => w.station.senderHash.toNat = u.toNat / 2 ^ 11 * 2 ^ 8 + u.toNat % 2 ^ 7 ∧ w.station.callbacks.tx = c.tx) := by
    intro ops
    induction ops with
    | nil =>
      intro w0 b hb w h
      injection h with h
      subst h
      exact hb
    | cons op ops ih =>
      intro w0 b hb w h
      simp only [World.run, List.foldlM_cons] at h
      obtain ⟨w1, h1, h2⟩ := bind_ok h
      have hst := (World.step_tx w0 w1 op h1).1
      have := ih w1 ((Spec.beginOf op).or b) (by
        cases op with
        | begin_ uuid cbs => exact hst
        | _ =>
          simp only [Spec.beginOf, Option.none_or]
          have h1 := hst.1
          have h2 := hst.2
          cases b with
          | none => exact h2.trans hb
          | some x => exact ⟨by rw [h1]; exact hb.1, h2.trans hb.2⟩) w h2
      rw [Spec.lastBegin, Option.or_assoc]
      exact this
  have hk := key ops w0 none (by rw [h0]) w h
  rw [Option.or_none] at hk
  obtain ⟨new, hl, hn⟩ := (World.step_tx w w' op hs).2
  refine ⟨new, hl, ?_⟩
  intro cb f hm
  obtain ⟨h1, h2⟩ := hn cb f hm
  cases hb : Spec.lastBegin ops with
  | none => rw [hb] at hk; rw [hk] at h1; cases h1
  | some x =>
    rw [hb] at hk
    refine ⟨x.1, x.2, rfl, hk.2.symm.trans h1, ?_⟩
    rw [← hk.1]
    exact h2

/-- Non-vacuity: a history with two begins; the transmission that follows goes to the second tx callback with the second hash. -/
example (pf : Platform) (p : StreamParser) (e : Locomotive) : ∃ w w' : World,
    (World.mk pf {} (fun _ => p) (fun _ => .app) (fun _ => e) []).run
      [.begin_ 0x180B#16 { tx := some 1 }, .sendGo, .begin_ 0x180C#16 { tx := some 2 }] = .ok w ∧
    w.step (.requestVelocity { uid := 5#32 }) = .ok w' ∧
    w'.log = w.log ++ [.call (.tx 2 { id := ⟨0x0008030C#32⟩, data := { dlc := 4#8, b3 := 5#8 } })] :=
  ⟨_, _, rfl, rfl, congrArg (fun f => _ ++ [LogEntry.call (.tx 2 f)]) (by
    show CanFrame.mk (Identifier.mk' kLocoSpeed (computeSenderHash (BitVec.zeroExtend 32 0x180C#16)))
      (Data.setLocid { dlc := 4#8 } 5#32) = _
    decide)⟩

/-! ## C23 -/

/-- The consumers a list of calls resets. -/
def Spec.resetsOf (calls : List Call) : List Nat :=
  calls.filterMap (fun | .cfgReset n => some n | _ => none)

private theorem resetsOf_reset (o : Option Nat) : Spec.resetsOf (o.toList.map .cfgReset) = o.toList := by
  cases o <;> rfl

private theorem resetsOf_start (o : Option Nat) : Spec.resetsOf (o.toList.map .cfgStart) = [] := by
  cases o <;> rfl

private theorem resetsOf_append (a b : List Call) : Spec.resetsOf (a ++ b) = Spec.resetsOf a ++ Spec.resetsOf b := by
  simp [Spec.resetsOf]

/-- Finish, Abort, notifyConfigStreamReceived and begin reset the registered consumer exactly once, transmit nothing, and detach it:
afterwards no consumer is registered (after `begin`: the one given to it). -/
theorem C23_detach (s : Station) (uuid : U16) (cbs : Callbacks) :
    (s.FinishCurrentConfigRequest.2 = s.callbacks.configData.toList.map .cfgReset ∧
      s.FinishCurrentConfigRequest.1 = { s with callbacks := { s.callbacks with configData := none } }) ∧
    s.AbortCurrentConfigRequest = s.FinishCurrentConfigRequest ∧ s.notifyConfigStreamReceived = s.FinishCurrentConfigRequest ∧
    ((s.begin_ uuid cbs).2 = s.callbacks.configData.toList.map .cfgReset ∧ (s.begin_ uuid cbs).1.callbacks = cbs) := by
  refine ⟨?_, rfl, rfl, ?_, rfl⟩
  · rw [finish_eq]; exact ⟨rfl, rfl⟩
  · simp only [Station.begin_, Station.AbortCurrentConfigRequest, finish_eq]

/-- A second Finish or Abort does nothing. -/
theorem C23_second_finish (s : Station) (h : s.callbacks.configData = none) :
    s.FinishCurrentConfigRequest = (s, []) ∧ s.AbortCurrentConfigRequest = (s, []) ∧ s.notifyConfigStreamReceived = (s, []) := by
  have : s.FinishCurrentConfigRequest = (s, []) := by simp [Station.FinishCurrentConfigRequest, h]
  exact ⟨this, this, this⟩

/-- A successful list request resets the old consumer exactly once, before anything else, and registers the new one. -/
theorem C23_request_list (s s' : Station) (offset : Byte) (parser : Option Nat) (calls : List Call)
    (h : s.RequestEngineList offset parser = .ok (s', calls)) :
    Spec.resetsOf calls = s.callbacks.configData.toList ∧ s.callbacks.configData.toList.map .cfgReset <+: calls ∧
    s'.callbacks.configData = parser := by
  have htx : s.callbacks.tx = none ∨ ∃ cb, s.callbacks.tx = some cb := by cases s.callbacks.tx <;> simp
  rcases htx with htx | ⟨cb, htx⟩
  · rw [requestEngineList_null s offset parser htx] at h; cases h
  · obtain ⟨f1, f2, h2, -⟩ := C20_request_engine_list s cb htx offset parser
    rw [h] at h2
    injection h2 with h2
    injection h2 with ha hb
    subst ha hb
    refine ⟨?_, ⟨_, (List.append_assoc _ _ _).symm⟩, rfl⟩
    rw [resetsOf_append, resetsOf_append, resetsOf_reset, resetsOf_start]
    simp [Spec.resetsOf]

/-- A successful engine request either is refused and does nothing, or does as the list request does. -/
theorem C23_request_engine (s s' : Station) (processing : Bool) (engine : ShortInfo) (parser : Option Nat) (calls : List Call)
    (h : s.RequestEngine processing engine parser = .ok (s', calls)) :
    ((engine.isNameKnown = false ∨ (s.callbacks.configData.isSome = true ∧ processing = true)) ∧ s' = s ∧ calls = []) ∨
    (Spec.resetsOf calls = s.callbacks.configData.toList ∧ s.callbacks.configData.toList.map .cfgReset <+: calls ∧
      s'.callbacks.configData = parser) := by
  by_cases hr : engine.isNameKnown = false ∨ (s.callbacks.configData.isSome = true ∧ processing = true)
  · rw [C21_request_refused s processing engine parser hr] at h
    injection h with h; injection h with h1 h2
    exact Or.inl ⟨hr, h1.symm, h2.symm⟩
  · right
    have hk : engine.isNameKnown = true := by
      cases hk : engine.isNameKnown
      · exact absurd (Or.inl hk) hr
      · rfl
    have hp : s.callbacks.configData = none ∨ processing = false := by
      cases hc : s.callbacks.configData with
      | none => exact Or.inl rfl
      | some n =>
        cases hb : processing
        · exact Or.inr rfl
        · exact absurd (Or.inr ⟨by rw [hc]; rfl, hb⟩) hr
    have hc : (s.callbacks.configData.isSome && processing) = false := by
      rcases hp with h | h
      · rw [h]; rfl
      · rw [h]; simp
    cases htx : s.callbacks.tx with
    | none =>
      simp only [Station.RequestEngine, hk, hc, Station.AbortCurrentConfigRequest, finish_eq, bind, Except.bind, Station.txSend,
        htx, Bool.not_true, Bool.false_eq_true, if_false] at h
      split at h <;> cases h
    | some cb =>
      rcases cstring_cases engine.name with hn | ⟨t, r, hn, ht⟩
      · exfalso
        simp only [Station.RequestEngine, hk, hc, Station.AbortCurrentConfigRequest, finish_eq, bind, Except.bind, Station.txSend,
          htx, Bool.not_true, Bool.false_eq_true, if_false, strlen, cstr_noNul _ hn] at h
        split at h <;> cases h
      · obtain ⟨f1, f2, f3, h2, -⟩ := C21_request_engine s cb htx processing engine parser t r hn ht hk hp
        rw [h] at h2
        injection h2 with h2
        injection h2 with ha hb
        subst ha hb
        refine ⟨?_, ⟨_, (List.append_assoc _ _ _).symm⟩, rfl⟩
        rw [resetsOf_append, resetsOf_append, resetsOf_reset, resetsOf_start]
        simp [Spec.resetsOf]

/-- Config data is handed on only to the registered consumer and only while it is processing, and it is the frame's payload. -/
theorem C23_delivery (s : Station) (processing : Bool) (f : CanFrame) (calls : List Call)
    (h : s.HandlePacket processing f = .ok calls) (n : Nat) (d : Data) :
    Call.cfgAdd n d ∈ calls ↔
      s.callbacks.configData = some n ∧ processing = true ∧ d = f.data ∧ f.id.raw.toNat / 2 ^ 17 % 256 = 0x21 := by
  rw [HandlePacket_eq] at h
  split at h
  · cases h
  · split at h
    · cases h
    · injection h with h
      subst h
      have ht : ∀ (o : Option Nat) (k : Nat → Call), (∀ m, k m ≠ .cfgAdd n d) → Call.cfgAdd n d ∉ Spec.toward o k := by
        intro o k hk hm
        obtain ⟨m, _, hm⟩ := List.mem_map.mp hm
        exact hk m hm
      change _ ↔ _ ∧ _ ∧ _ ∧ Spec.commandOf f = 0x21
      constructor
      · intro hm
        unfold Spec.reaction at hm
        simp only at hm
        split at hm
        · split at hm
          · split at hm <;> first | exact absurd hm (ht _ _ (by intro m h; cases h)) | cases hm
          · cases hm
        · split at hm <;> first | exact absurd hm (ht _ _ (by intro m h; cases h)) | cases hm
        · split at hm
          · split at hm <;> first | exact absurd hm (ht _ _ (by intro m h; cases h)) | cases hm
          · cases hm
        · split at hm <;> first | exact absurd hm (ht _ _ (by intro m h; cases h)) | cases hm
        · exact absurd hm (ht _ _ (by intro m h; cases h))
        · next hcmd =>
          split at hm
          · next hp =>
            obtain ⟨m, hm1, hm2⟩ := List.mem_map.mp hm
            injection hm2 with h1 h2
            subst h1
            exact ⟨Option.mem_toList.mp hm1, hp, h2.symm, hcmd⟩
          · cases hm
        · cases hm
      · rintro ⟨h1, h2, h3, h4⟩
        simp [Spec.reaction, h4, h2, h1, h3, Spec.toward]

/-- Once no consumer is registered, received frames change no stream parser and reach no consumer, whatever the frames are. -/
theorem C23_detached (w w' : World) (hn : w.station.callbacks.configData = none) (frames : List CanFrame)
    (h : w.run (frames.map .handle) = .ok w') :
    w'.parsers = w.parsers ∧ w'.consumers = w.consumers ∧ w'.engines = w.engines ∧
    w'.station.callbacks.configData = none ∧ ∃ new, w'.log = w.log ++ new ∧ ∀ e ∈ new, ∃ c, e = .call c := by
  induction frames generalizing w with
  | nil =>
    injection h with h
    subst h
    exact ⟨rfl, rfl, rfl, hn, [], by simp, by intro e h; cases h⟩
  | cons f fs ih =>
    simp only [World.run, List.map_cons, List.foldlM_cons] at h
    obtain ⟨w1, h1, h2⟩ := bind_ok h
    have key : w1.parsers = w.parsers ∧ w1.consumers = w.consumers ∧ w1.engines = w.engines ∧
        w1.station = w.station ∧ ∃ new, w1.log = w.log ++ new ∧ ∀ e ∈ new, ∃ c, e = .call c := by
      obtain ⟨calls, hc, hr⟩ := bind_ok h1
      have hcs := C14_no_tx _ _ _ _ hc
      have hca := C23_delivery _ _ _ _ hc
      refine foldlM_inv_mem World.runCall
        (fun v => v.parsers = w.parsers ∧ v.consumers = w.consumers ∧ v.engines = w.engines ∧
          v.station = w.station ∧ ∃ new, v.log = w.log ++ new ∧ ∀ e ∈ new, ∃ c, e = .call c)
        calls ?_ w w1 ⟨rfl, rfl, rfl, rfl, [], by simp, by intro e h; cases h⟩ hr
      rintro b a b' ha ⟨p1, p2, p3, p4, new, p5, p6⟩ hs
      unfold World.runCall at hs
      split at hs
      · exact absurd rfl ((hcs _ ha).2.1 _)
      · next n d =>
        have := ((hca n d).mp ha).1
        rw [hn] at this; cases this
      · exact absurd rfl ((hcs _ ha).2.2 _)
      · injection hs with hs
        subst hs
        refine ⟨p1, p2, p3, p4, new ++ [.call a], by simp [World.logAll, p5], ?_⟩
        intro e he
        rcases List.mem_append.mp he with he | he
        · exact p6 e he
        · exact ⟨a, List.mem_singleton.mp he⟩
    obtain ⟨p1, p2, p3, p4, new, p5, p6⟩ := key
    obtain ⟨q1, q2, q3, q4, new', q5, q6⟩ := ih w1 (by rw [p4]; exact hn) h2
    refine ⟨q1.trans p1, q2.trans p2, q3.trans p3, q4, new ++ new', by rw [q5, p5, List.append_assoc], ?_⟩
    intro e he
    rcases List.mem_append.mp he with he | he
    · exact p6 e he
    · exact q6 e he

/-- Non-vacuity: a station with consumer 3 registered. -/
example : ({ callbacks := { configData := some 3 } } : Station).FinishCurrentConfigRequest = ({}, [.cfgReset 3]) ∧
    (({ callbacks := { configData := some 3 } } : Station).HandlePacket true (Util.Config_Data_Stream_First 8#32 1#16)).map
      List.length = .ok 1 := by decide

end RR32
