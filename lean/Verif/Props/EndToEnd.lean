import Verif.Props.Served
import Verif.Spec.Files

/-! # C49, C51: an engine, or the engine list, is requested, and the frames with it arrive -/

set_option autoImplicit false

namespace RR32

open Spec

/-- The entries of a document that fits fit. -/
theorem entriesOf_fits (items : List Item) (cur : List Byte) (hc : cur.length ≤ maxSection) (h : ∀ i ∈ items, i.Fits) :
    ∀ e ∈ entriesOf cur items, e.Fits := by
  induction items generalizing cur with
  | nil => intro e he; cases he
  | cons i items ih =>
    intro e he
    have hi := h i (List.mem_cons_self ..)
    rcases List.mem_append.mp he with he | he
    · cases i with
      | «section» f n => cases he
      | entry f k v => rw [List.mem_singleton.mp he]; exact ⟨hc, hi.1, hi.2⟩
      | flag f k => rw [List.mem_singleton.mp he]; exact ⟨hc, hi, Nat.zero_le _⟩
    · refine ih _ ?_ (fun x hx => h x (List.mem_cons_of_mem _ hx)) e he
      cases i with
      | «section» f n => exact hi
      | entry f k v => exact hc
      | flag f k => exact hc

/-! ## C49 -/

/-- The entries of the file of an engine: those for uid, address and protocol say these values, and each is there. -/
structure EngineFile (es : List Entry) (u a : U32) (p : List Byte) : Prop where
  readable : ∀ e ∈ es, HasNul 26 e.value
  uid : ∀ e ∈ es, SetsUid e → HexValue e.value u
  address : ∀ e ∈ es, SetsAddress e → HexValue e.value a
  protocol : ∀ e ∈ es, SetsProtocol e → text e.value = p
  hasUid : ∃ e ∈ es, SetsUid e
  hasAddress : ∃ e ∈ es, SetsAddress e
  hasProtocol : ∃ e ∈ es, SetsProtocol e
  short : p.length ≤ 7

theorem Spec.NamedEngineFile.matched {es : List Entry} {u a : U32} {p : List Byte} (h : NamedEngineFile es u a p) : EngineFile es u a p := by
  have hs : ∀ e ∈ es, IsLoco e → e.sect = str "lokomotive" := fun e he hm =>
    (h.unambiguous e he).1 _ (by simp) ((Matches_iff _ _ (h.plain e he).1).mp hm)
  have hk : ∀ e ∈ es, ∀ n ∈ [str "uid", str "typ", str "adresse"], Matches n e.key → e.key = n := fun e he n hn hm =>
    (h.unambiguous e he).2 n hn ((Matches_iff _ _ (h.plain e he).2).mp hm)
  refine ⟨h.readable, fun e he hm => h.uid e he (hs e he hm.1) (hk e he _ (by simp) hm.2),
    fun e he hm => h.address e he (hs e he hm.1) (hk e he _ (by simp) hm.2.2.2),
    fun e he hm => h.protocol e he (hs e he hm.1) (hk e he _ (by simp) hm.2.2), ?_, ?_, ?_, h.short⟩
  · obtain ⟨e, he, h1, h2⟩ := h.hasUid
    exact ⟨e, he, by unfold SetsUid IsLoco; rw [h1, h2]; decide⟩
  · obtain ⟨e, he, h1, h2⟩ := h.hasAddress
    exact ⟨e, he, by unfold SetsAddress IsLoco; rw [h1, h2]; decide⟩
  · obtain ⟨e, he, h1, h2⟩ := h.hasProtocol
    exact ⟨e, he, by unfold SetsProtocol IsLoco; rw [h1, h2]; decide⟩

/-- Entries that all say the same about uid, address and protocol. -/
theorem engine_entries (pf : Platform) (hpf : 32 ≤ pf.longBits) (uid address : U32) (protocol : List Byte) (hp7 : protocol.length ≤ 7)
    (es : List Entry) (eng : Locomotive) (hp : eng.protocol.length = 8) (he : ∀ e ∈ es, e.Fits ∧ HasNul 26 e.value)
    (hu : ∀ e ∈ es, SetsUid e → HexValue e.value uid) (ha : ∀ e ∈ es, SetsAddress e → HexValue e.value address)
    (ht : ∀ e ∈ es, SetsProtocol e → text e.value = protocol) :
    ∃ k, consumeEntries pf eng es = .ok k ∧ SameRest k eng ∧ k.protocol.length = 8 ∧
      ((eng.data.uid = uid ∨ ∃ e ∈ es, SetsUid e) → k.data.uid = uid) ∧
      ((eng.data.address = ⟨address⟩ ∨ ∃ e ∈ es, SetsAddress e) → k.data.address = ⟨address⟩) ∧
      ((text eng.protocol = protocol ∨ ∃ e ∈ es, SetsProtocol e) → text k.protocol = protocol) := by
  induction es generalizing eng with
  | nil =>
    refine ⟨eng, rfl, SameRest.refl _, hp, ?_, ?_, ?_⟩ <;>
    · rintro (h | ⟨e, h, -⟩)
      · exact h
      · cases h
  | cons e es ih =>
    obtain ⟨hf, hv⟩ := he e (List.mem_cons_self ..)
    have step : ∃ k, consumeEntry pf eng e = .ok k ∧ SameRest k eng ∧ k.protocol.length = 8 ∧
        ((eng.data.uid = uid ∨ SetsUid e) → k.data.uid = uid) ∧
        ((eng.data.address = ⟨address⟩ ∨ SetsAddress e) → k.data.address = ⟨address⟩) ∧
        ((text eng.protocol = protocol ∨ SetsProtocol e) → text k.protocol = protocol) := by
      have x12 : SetsUid e → SetsProtocol e → False := fun a b => b.2.1 a.2
      have x13 : SetsUid e → SetsAddress e → False := fun a b => b.2.1 a.2
      have x23 : SetsProtocol e → SetsAddress e → False := fun a b => b.2.2.1 a.2.2
      by_cases h1 : SetsUid e
      · obtain ⟨hl, pre, ds, h2, h3, h4, h5⟩ := hu e (List.mem_cons_self ..) h1
        refine ⟨_, C48_uid pf hpf eng e hf h1 pre ds uid h2 h3 h4 h5 hl, ⟨rfl, rfl, rfl, rfl⟩, hp, fun _ => rfl, ?_, ?_⟩
        · rintro (h | h)
          · exact h
          · exact (x13 h1 h).elim
        · rintro (h | h)
          · exact h
          · exact (x12 h1 h).elim
      · by_cases h2 : SetsProtocol e
        · obtain ⟨p, g1, g2, g3, -⟩ := C47_protocol pf eng hp e hf h2
          refine ⟨_, g1, ⟨rfl, rfl, rfl, rfl⟩, g2, ?_, ?_, ?_⟩
          · rintro (h | h)
            · exact h
            · exact (h1 h).elim
          · rintro (h | h)
            · exact h
            · exact (x23 h2 h).elim
          · intro _
            rw [g3, ht e (List.mem_cons_self ..) h2, List.take_of_length_le (by omega)]
        · by_cases h3 : SetsAddress e
          · obtain ⟨hl, pre, ds, g2, g3, g4, g5⟩ := ha e (List.mem_cons_self ..) h3
            refine ⟨_, C48_address pf hpf eng e hf h3 pre ds address g2 g3 g4 g5 hl, ⟨rfl, rfl, rfl, rfl⟩, hp, ?_, fun _ => rfl, ?_⟩
            · rintro (h | h)
              · exact h
              · exact (h1 h).elim
            · rintro (h | h)
              · exact h
              · exact (h2 h).elim
          · refine ⟨eng, C47_other pf eng e hf h1 h2 h3, SameRest.refl _, hp, ?_, ?_, ?_⟩
            · rintro (h | h)
              · exact h
              · exact (h1 h).elim
            · rintro (h | h)
              · exact h
              · exact (h3 h).elim
            · rintro (h | h)
              · exact h
              · exact (h2 h).elim
    obtain ⟨k1, a1, a2, a3, a4, a5, a6⟩ := step
    obtain ⟨k, b1, b2, b3, b4, b5, b6⟩ := ih k1 a3 (fun x hx => he x (List.mem_cons_of_mem _ hx)) (fun x hx => hu x (List.mem_cons_of_mem _ hx))
      (fun x hx => ha x (List.mem_cons_of_mem _ hx)) (fun x hx => ht x (List.mem_cons_of_mem _ hx))
    refine ⟨k, by simp only [consumeEntries, a1, bind, Except.bind]; exact b1, b2.trans a2, b3, ?_, ?_, ?_⟩
    · rintro (h | ⟨x, hx, h⟩)
      · exact b4 (Or.inl (a4 (Or.inl h)))
      · rcases List.mem_cons.mp hx with rfl | hx
        · exact b4 (Or.inl (a4 (Or.inr h)))
        · exact b4 (Or.inr ⟨x, hx, h⟩)
    · rintro (h | ⟨x, hx, h⟩)
      · exact b5 (Or.inl (a5 (Or.inl h)))
      · rcases List.mem_cons.mp hx with rfl | hx
        · exact b5 (Or.inl (a5 (Or.inr h)))
        · exact b5 (Or.inr ⟨x, hx, h⟩)
    · rintro (h | ⟨x, hx, h⟩)
      · exact b6 (Or.inl (a6 (Or.inl h)))
      · rcases List.mem_cons.mp hx with rfl | hx
        · exact b6 (Or.inl (a6 (Or.inr h)))
        · exact b6 (Or.inr ⟨x, hx, h⟩)

/-- The end of a stream at an engine consumer with engine and callback. -/
theorem World.loco_complete (w : World) (c : Nat) (l : LocoConsumer) (h : w.consumers c = .loco l) (e cb : Nat) (he : l.currentEngine = .obj e)
    (hcb : l.streamEndCallback = .obj cb) (hn : Terminated (w.engines e).info.name) (hp : Terminated (w.engines e).protocol) :
    w.callConsumers (calls c [.complete]) = .ok { w with
      engines := w.engines.set e ((w.engines e).setAvailability .FULL_DETAILS),
      log := w.log ++ [.consumer ⟨c, .complete⟩, .streamEnd cb c true (.engine ((w.engines e).setAvailability .FULL_DETAILS))] } := by
  have hprint : ((w.engines e).setAvailability .FULL_DETAILS).print = .ok () := by
    simp only [Locomotive.print, Locomotive.setAvailability, ShortInfo.print, cstr_text hn, cstr_text hp, bind, Except.bind, pure, Except.pure, if_true]
    rfl
  show World.callConsumers w [⟨c, .complete⟩] = _
  rw [World.callConsumers_cons]
  unfold World.callConsumer
  simp only [World.logAll, h, LocoConsumer.setStreamComplete, he, hcb, Ptr.read, hprint, bind, Except.bind, World.callConsumers_nil, endCalls,
    World.endLog, List.map_cons, List.map_nil, List.append_assoc, List.singleton_append]

/-- C49, for the entries the code takes for those of uid, protocol and address (`SetsUid`, `SetsProtocol`, `SetsAddress`): an engine is
requested for a parser that is not registered, the frames of its file arrive, and the engine holds uid, address and protocol of the file,
all its details are known, nothing else changed, and the end callback of the consumer was called once, with the finished engine. Missing:
files with entries whose section and key are proper prefixes of the names, which overwrite the values (`C49_false`). -/
theorem C49_download_partial (w : World) (h : Sound w) (ht : Tidy w) (hpf : 32 ≤ w.pf.longBits) (tx : Nat) (htx : w.station.callbacks.tx = some tx)
    (n c e cb : Nat) (l : LocoConsumer) (hc : w.consumers c = .loco l) (he : l.currentEngine = .obj e) (hcb : l.streamEndCallback = .obj cb)
    (hname : Terminated (w.engines e).info.name) (hprot : (w.engines e).protocol.length = 8)
    (hreg : w.station.callbacks.configData ≠ some n) (op : Op) (hr : Requests w n op) (first : CanFrame) (rest : List CanFrame)
    (items : List Item) (tail : Tail) (hw : WireStream first rest items tail) (uid address : U32) (protocol : List Byte)
    (hfile : EngineFile (entriesOf [] items) uid address protocol) :
    ∃ v u, w.run [.parserStart n (some c), op] = .ok v ∧ v.run ((first :: rest).map .handle) = .ok u ∧
      (u.engines e).data.uid = uid ∧ (u.engines e).data.address = ⟨address⟩ ∧ cstr (u.engines e).protocol = .ok protocol ∧
      (u.engines e).isFullDetailsKnown = true ∧ (u.engines e).info.name = (w.engines e).info.name ∧
      (u.engines e).data.velocity = (w.engines e).data.velocity ∧ (u.engines e).data.direction = (w.engines e).data.direction ∧
      (u.engines e).data.functionBits = (w.engines e).data.functionBits ∧ (∀ m, m ≠ e → u.engines m = w.engines m) ∧
      u.log = v.log ++ (calls c ((entriesOf [] items).map .entry ++ [.complete])).map .consumer ++
        [.streamEnd cb c true (.engine (u.engines e))] := by
  obtain ⟨v, q, h1, h2, h3, h4, h5⟩ := C46_served_partial w h ht tx htx n c (by rw [hc]; exact ⟨(by rw [he]; intro h; cases h), (by rw [hcb]; intro h; cases h)⟩)
    hreg op hr first rest items tail hw
  have hcv : v.consumers c = .loco l := by
    rcases h5 with h5 | ⟨l', h5, -⟩
    · rw [h5, hc]
    · rw [hc] at h5; cases h5
  obtain ⟨k, a1, a2, a3, a4, a5, a6⟩ := engine_entries w.pf hpf uid address protocol hfile.short (entriesOf [] items) (w.engines e) hprot
    (fun x hx => ⟨entriesOf_fits items [] (Nat.zero_le _) hw.fits x hx, hfile.readable x hx⟩) hfile.uid hfile.address hfile.protocol
  have hk1 : text k.protocol = protocol := a6 (Or.inr hfile.hasProtocol)
  have hk2 : Terminated k.protocol := by
    rw [terminated_iff, hk1, a3]
    have := hfile.short
    omega
  have hk3 : Terminated k.info.name := by rw [a2.1]; exact hname
  have hent := World.loco_entries (v.setParser n q) c l hcv e he (entriesOf [] items)
  have hset : ∀ (es : Engines) (x : Locomotive), (es.set e x) e = x := by intro es x; simp [Engines.set]
  have ha : consumeEntries (v.setParser n q).pf ((v.setParser n q).engines e) (entriesOf [] items) = .ok k := by
    rw [show (v.setParser n q).pf = w.pf from h4, show (v.setParser n q).engines = w.engines from h3, a1]
  rw [ha] at hent
  have hfin := World.loco_complete { v.setParser n q with
    engines := v.engines.set e k, log := v.log ++ (calls c ((entriesOf [] items).map .entry)).map .consumer } c l hcv e cb he hcb
    (by simp only [hset]; exact hk3) (by simp only [hset]; exact hk2)
  rw [calls_append, World.callConsumers_append, hent] at h2
  replace h2 := h2.trans hfin
  refine ⟨v, _, h1, h2, ?_, ?_, ?_, ?_, ?_, ?_, ?_, ?_, ?_, ?_⟩
  · simp only [hset]; exact a4 (Or.inr hfile.hasUid)
  · simp only [hset]; exact a5 (Or.inr hfile.hasAddress)
  · simp only [hset]
    show cstr k.protocol = _
    rw [cstr_text hk2, hk1]
  · simp only [hset]; rfl
  · simp only [hset]
    show k.info.name = _
    rw [a2.1]
  · simp only [hset]; exact a2.2.1
  · simp only [hset]; exact a2.2.2.1
  · simp only [hset]; exact a2.2.2.2
  · intro m hm
    simp [Engines.set, hm, h3]
  · simp only [hset, List.map_append, calls_append, List.append_assoc]
    rfl

/-- C49 is false for files that also have an entry whose key is a proper prefix of `uid`, behind the entry for the uid: the engine gets
the value of that entry. -/
theorem C49_false (pf : Platform) (hpf : 32 ≤ pf.longBits) (eng : Locomotive) (hp : eng.protocol.length = 8) (es : List Entry)
    (he : ∀ e ∈ es, e.Fits ∧ HasNul 26 e.value) (k : List Byte) (hk : k <+: str "uid") :
    ∃ r, consumeEntries pf eng (es ++ [⟨str "lokomotive", k, str "1"⟩]) = .ok r ∧ r.data.uid = 1#32 := by
  obtain ⟨r, h1, -⟩ := C47_sequence pf eng hp es he
  rw [consumeEntries_append, h1]
  refine ⟨{ r with data := { r.data with uid := 1#32 } }, ?_, rfl⟩
  show consumeEntries pf r [_] = _
  simp only [consumeEntries, C47_false pf hpf r (str "lokomotive") k (List.prefix_refl _) hk, bind, Except.bind]

/-! ## C51 -/

/-- The entries of a list of engines: the names, and the number of engines wherever it is. -/
structure ListFile (es : List Entry) (ns : List (List Byte)) (count : Byte) : Prop where
  readable : ∀ e ∈ es, HasNul 26 e.value ∧ HasNul 11 e.sect
  names : namesIn es = ns
  count : ∀ e ∈ es, IsCount e → e.value.length < 26 ∧ Numeral 10 e.value count.toNat ∧ e.value ≠ []
  hasCount : ∃ e ∈ es, IsCount e

theorem Spec.NamedListFile.matched {es : List Entry} {ns : List (List Byte)} {count : Byte} (h : NamedListFile es ns count) :
    ListFile es ns count := by
  have hn := fun e he => C50_named_partial e (h.plain e he).1 (h.plain e he).2 (h.unambiguous e he).1 (h.unambiguous e he).2
  refine ⟨h.readable, ?_, fun e he hc => ?_, ?_⟩
  · rw [← h.names]
    unfold namesIn
    congr 1
    apply List.filter_congr
    intro e he
    rw [decide_eq_decide]
    exact (hn e he).1
  · obtain ⟨h1, h2⟩ := (hn e he).2.mp hc
    exact h.count e he h1 h2
  · obtain ⟨e, he, h1⟩ := h.hasCount
    exact ⟨e, he, (hn e he).2.mpr h1⟩

theorem list_entries_count (pf : Platform) (hpf : 9 ≤ pf.longBits) (count : Byte) (es : List Entry) (l : LocoListConsumer)
    (names : List (List Byte)) (hs : Shows l names) (he : ∀ e ∈ es, ListSafe e)
    (hc : ∀ e ∈ es, IsCount e → e.value.length < 26 ∧ Numeral 10 e.value count.toNat ∧ e.value ≠ [])
    (h : l.numEnginesKnownByMaster = some count ∨ ∃ e ∈ es, IsCount e) :
    ∃ d, listEntries pf l es = .ok d ∧ d.numEnginesKnownByMaster = some count := by
  have hlast : ∀ es : List Entry, (∃ e ∈ es, IsCount e) → ∃ pre e post, es = pre ++ e :: post ∧ IsCount e ∧ ∀ x ∈ post, ¬IsCount x := by
    intro es
    induction es with
    | nil => rintro ⟨e, h, -⟩; cases h
    | cons a es ih =>
      rintro ⟨e, h, hce⟩
      by_cases h' : ∃ e ∈ es, IsCount e
      · obtain ⟨pre, e, post, h1, h2, h3⟩ := ih h'
        exact ⟨a :: pre, e, post, by rw [h1]; rfl, h2, h3⟩
      · have : e = a := by
          rcases List.mem_cons.mp h with h | h
          · exact h
          · exact absurd ⟨e, h, hce⟩ h'
        subst this
        exact ⟨[], e, es, rfl, hce, fun x hx hx' => h' ⟨x, hx, hx'⟩⟩
  by_cases hex : ∃ e ∈ es, IsCount e
  · obtain ⟨pre, e, post, rfl, h2, h3⟩ := hlast es hex
    obtain ⟨d, v, a1, a2, a3⟩ := C50_last_count pf l names hs pre post e he h2 h3
    obtain ⟨b1, b2, b3⟩ := hc e (List.mem_append_right _ (List.mem_cons_self ..)) h2
    refine ⟨d, a1, ?_⟩
    rw [C48_count pf hpf e.value count.toNat b2 b3 b1, if_pos] at a2
    · injection a2 with a2
      rw [a3, ← a2]
      simp
    · have := count.isLt
      have : 2 ^ 8 ≤ 2 ^ (pf.longBits - 1) := Nat.pow_le_pow_right (by decide) (by omega)
      omega
  · obtain ⟨d, a1, -, -, -, -, a6⟩ := C50_sequence pf l names hs es he
    refine ⟨d, a1, ?_⟩
    rw [a6 (fun e he hce => hex ⟨e, he, hce⟩)]
    exact h.resolve_right hex

/-- The end of a stream at a list with a callback. -/
theorem World.list_complete (w : World) (c : Nat) (l : LocoListConsumer) (h : w.consumers c = .list l) (cb : Nat)
    (hcb : l.streamEndCallback = .obj cb) :
    w.callConsumers (calls c [.complete]) = .ok { w.setConsumer c (.list { l with streamComplete := some true }) with
      log := w.log ++ [.consumer ⟨c, .complete⟩, .streamEnd cb c true (.list { l with streamComplete := some true })] } := by
  show World.callConsumers w [⟨c, .complete⟩] = _
  rw [World.callConsumers_cons]
  unfold World.callConsumer
  simp only [World.logAll, h, LocoListConsumer.setStreamComplete, hcb, Ptr.read, bind, Except.bind, World.callConsumers_nil, endCalls,
    World.endLog, List.map_cons, List.map_nil, List.append_assoc, List.singleton_append, World.setConsumer]

/-- C51, for the entries the code takes for names and counts (`NamesEngine`, `IsCount`): the list is requested for a parser that is not
registered, the frames arrive, and a table that was empty shows the first two names, the count is known, and the end callback of the
list was called once, with the finished list. Missing: sections and keys that are proper prefixes of the names (`C50_false`), and tokens
that fill their buffers (`C50_overrun`). -/
theorem C51_download_partial (w : World) (h : Sound w) (ht : Tidy w) (hpf : 9 ≤ w.pf.longBits) (tx : Nat) (htx : w.station.callbacks.tx = some tx)
    (n c cb : Nat) (l : LocoListConsumer) (hc : w.consumers c = .list l) (hempty : Shows l []) (hcb : l.streamEndCallback = .obj cb)
    (hreg : w.station.callbacks.configData ≠ some n) (op : Op) (hr : Requests w n op) (first : CanFrame) (rest : List CanFrame)
    (items : List Item) (tail : Tail) (hw : WireStream first rest items tail) (ns : List (List Byte)) (count : Byte)
    (hfile : ListFile (entriesOf [] items) ns count) :
    ∃ v u d, w.run [.parserStart n (some c), op] = .ok v ∧ v.run ((first :: rest).map .handle) = .ok u ∧ u.consumers c = .list d ∧
      Shows d (ns.take 2) ∧ d.numEnginesKnownByMaster = some count ∧ d.streamComplete = some true ∧ u.engines = w.engines ∧
      u.log = v.log ++ (calls c ((entriesOf [] items).map .entry ++ [.complete])).map .consumer ++ [.streamEnd cb c true (.list d)] := by
  obtain ⟨v, q, h1, h2, h3, h4, h5⟩ := C46_served_partial w h ht tx htx n c (by rw [hc]; show l.streamEndCallback ≠ _; rw [hcb]; intro h; cases h)
    hreg op hr first rest items tail hw
  obtain ⟨l', hcv, hl1, hl2⟩ : ∃ l', v.consumers c = .list l' ∧ Shows l' [] ∧ l'.streamEndCallback = .obj cb := by
    rcases h5 with h5 | ⟨l', h5, h6⟩
    · exact ⟨l, by rw [h5, hc], hempty, hcb⟩
    · rw [hc] at h5
      cases h5
      refine ⟨_, h6, ?_, hcb⟩
      have := shows_clear l (by
        have := congrArg List.length hempty.2
        simpa using this)
      exact this
  have hsafe : ∀ e ∈ entriesOf [] items, ListSafe e := fun x hx =>
    ⟨entriesOf_fits items [] (Nat.zero_le _) hw.fits x hx, (hfile.readable x hx).1, (hfile.readable x hx).2⟩
  obtain ⟨d, a1, a2, -, -, a5, -⟩ := C50_sequence w.pf l' [] hl1 (entriesOf [] items) hsafe
  obtain ⟨d', b1, b2⟩ := list_entries_count w.pf hpf count (entriesOf [] items) l' [] hl1 hsafe hfile.count (Or.inr hfile.hasCount)
  rw [a1] at b1
  cases b1
  have hent := World.list_entries (v.setParser n q) c l' hcv (entriesOf [] items)
  have ha : listEntries (v.setParser n q).pf l' (entriesOf [] items) = .ok d := by
    rw [show (v.setParser n q).pf = w.pf from h4, a1]
  rw [ha] at hent
  have hfin := World.list_complete { (v.setParser n q).setConsumer c (.list d) with
    log := v.log ++ (calls c ((entriesOf [] items).map .entry)).map .consumer } c d (by simp [World.setConsumer]) cb (by rw [a5]; exact hl2)
  rw [calls_append, World.callConsumers_append, hent] at h2
  replace h2 := h2.trans hfin
  refine ⟨v, _, { d with streamComplete := some true }, h1, h2, by simp [World.setConsumer], ?_, b2, rfl, h3, ?_⟩
  · rw [List.nil_append, hfile.names] at a2
    exact a2
  · simp only [List.map_append, calls_append, List.append_assoc]
    rfl

/-! ## Every document can be sent -/

/-- The data packets with the given bytes. -/
def packetsOf : List Byte → List Data
  | a :: b :: c :: d :: e :: f :: g :: h :: l =>
      { dlc := 8#8, b0 := a, b1 := b, b2 := c, b3 := d, b4 := e, b5 := f, b6 := g, b7 := h } :: packetsOf l
  | _ => []

theorem packetsOf_spec (n : Nat) : ∀ l : List Byte, l.length = 8 * n →
    payload (packetsOf l) = l ∧ (packetsOf l).length = n ∧ AreData (packetsOf l) := by
  induction n with
  | zero =>
    intro l h
    rw [List.eq_nil_of_length_eq_zero h]
    exact ⟨rfl, rfl, by intro d hd; cases hd⟩
  | succ n ih =>
    intro l h
    match l, h with
    | a :: b :: c :: d :: e :: f :: g :: k :: l, h =>
      obtain ⟨h1, h2, h3⟩ := ih l (by simp only [List.length_cons] at h; omega)
      refine ⟨?_, ?_, ?_⟩
      · rw [packetsOf, payload_cons, h1]; rfl
      · rw [packetsOf, List.length_cons, h2]
      · intro x hx
        rw [packetsOf] at hx
        rcases List.mem_cons.mp hx with rfl | hx
        · rfl
        · exact h3 x hx

/-- The first packet that announces length and checksum. -/
def firstOf (n : Nat) (crc : U16) : Data :=
  { dlc := 6#8, b0 := BitVec.ofNat 8 (n / 2 ^ 24), b1 := BitVec.ofNat 8 (n / 2 ^ 16), b2 := BitVec.ofNat 8 (n / 2 ^ 8), b3 := BitVec.ofNat 8 n,
    b4 := BitVec.ofNat 8 (crc.toNat / 2 ^ 8), b5 := BitVec.ofNat 8 crc.toNat }

/-- Every document that fits, with its last packet padded by zeros, has frames. -/
theorem wire_exists (items : List Item) (hw : ∀ i ∈ items, i.WellFormed) (hf : ∀ i ∈ items, i.Fits) (hne : items ≠ [])
    (hlen : (render items).length + 8 ≤ 2 ^ 32) :
    ∃ first rest pad, WireStream first rest items (.filler (List.replicate pad 0#8)) ∧ pad < 8 := by
  have hpos : 0 < (render items).length := by
    match items, hne with
    | i :: is, _ =>
      show 0 < (i.render ++ render is).length
      rw [List.length_append]
      cases i <;> simp only [Item.render, List.length_append, List.length_cons] <;> omega
  generalize hl : (render items).length = len at *
  obtain ⟨n, pad, hn, hp⟩ : ∃ n pad, len + pad = 8 * n ∧ pad < 8 := ⟨(len + 7) / 8, 8 * ((len + 7) / 8) - len, by omega, by omega⟩
  obtain ⟨h1, h2, h3⟩ := packetsOf_spec n (render items ++ List.replicate pad 0#8) (by rw [List.length_append, List.length_replicate, hl, hn])
  have hid : ∀ x : CanFrame, x.id = ⟨0x420301#32⟩ → commandOf x = 0x21 := by
    intro x hx; unfold commandOf; rw [hx]; decide
  generalize hps : packetsOf (render items ++ List.replicate pad 0#8) = ps at h1 h2 h3
  have hm : ((ps.map (fun d => ({ id := ⟨0x420301#32⟩, data := d } : CanFrame))).map (·.data)) = ps := by
    rw [List.map_map]
    exact List.map_id' ps
  refine ⟨{ id := ⟨0x420301#32⟩, data := firstOf (8 * n) (crcOf (render items ++ List.replicate pad 0#8)) },
    ps.map (fun d => { id := ⟨0x420301#32⟩, data := d }), pad, ?_, hp⟩
  refine ⟨?_, Or.inl rfl, ?_, ?_, ?_, ?_, hw, hf, ?_, trivial, ?_⟩
  · intro f hf
    rcases List.mem_cons.mp hf with rfl | hf
    · exact hid _ rfl
    · obtain ⟨d, -, rfl⟩ := List.mem_map.mp hf
      exact hid _ rfl
  · rw [hm]; exact h3
  · intro h
    have : ps.length = 0 := by rw [List.map_eq_nil_iff.mp h]; rfl
    omega
  · rw [List.length_map, h2]
    simp only [announcedLength, firstOf, BitVec.toNat_ofNat]
    omega
  · rw [hm, h1, isCrcOf_iff]
    apply BitVec.eq_of_toNat_eq
    simp only [announcedCrc, firstOf, BitVec.toNat_ofNat]
    have := (crcOf (render items ++ List.replicate pad 0#8)).isLt
    omega
  · intro b hb
    rw [(List.mem_replicate.mp hb).2]
    decide
  · rw [hm, h1]; rfl

/-! ## Cases -/

/-- A new station with a transmit callback, all consumers and engines being given. -/
theorem started (cs : Nat → Consumer) (engines : Engines) : ∃ w, (World.new ⟨32⟩ cs engines).run [.begin_ 1#16 { tx := some 5 }] = .ok w ∧
    Sound w ∧ Tidy w ∧ w.pf = ⟨32⟩ ∧ w.station.callbacks.tx = some 5 ∧ w.consumers = cs ∧ w.engines = engines ∧ w.station.callbacks.configData = none := by
  refine ⟨_, rfl, ?_, ?_, rfl, rfl, rfl, rfl, rfl⟩
  · exact (C58_history _ (C58_start ⟨32⟩ cs engines) [.begin_ 1#16 { tx := some 5 }] ⟨trivial, fun _ _ => trivial⟩).2 _ rfl
  · exact (tidy_history [.begin_ 1#16 { tx := some 5 }] _ _ (tidy_new ⟨32⟩ cs engines) (C58_start ⟨32⟩ cs engines) ⟨trivial, fun _ _ => trivial⟩
      (by decide) rfl).1

instance (l : List Byte) : Decidable (IsFiller l) := by unfold IsFiller; infer_instance
instance (l : List Byte) : Decidable (IsName l) := by unfold IsName; infer_instance
instance (l : List Byte) : Decidable (IsKey l) := by unfold IsKey; infer_instance
instance (l : List Byte) : Decidable (IsValue l) := by unfold IsValue; infer_instance
instance (i : Item) : Decidable i.WellFormed := by cases i <;> (unfold Item.WellFormed; infer_instance)
instance (i : Item) : Decidable i.Fits := by cases i <;> (unfold Item.Fits; infer_instance)
instance (n : Nat) (l : List Byte) : Decidable (HasNul n l) := by unfold HasNul; infer_instance
instance (l : List Byte) : Decidable (NoNul l) := by unfold NoNul; infer_instance
instance (ns : List (List Byte)) (l : List Byte) : Decidable (Unambiguous ns l) := by unfold Unambiguous; infer_instance

/-- The file of an engine, with a line break, a name and a nested line. -/
def caseEngine : List Item :=
  [.section [] (str "lokomotive"), .entry (str "\n ") (str "uid") (str "0x" ++ hexText 0x4006#32), .entry (str " ") (str "name") (str "BR 12"),
    .entry (str " ") (str "adresse") (hexText 6#32), .entry (str " ") (str ".typ") (str "7"), .entry (str " ") (str "typ") (str "mm2_prg")]

theorem caseEngine_file : NamedEngineFile (entriesOf [] caseEngine) 0x4006#32 6#32 (str "mm2_prg") := by
  refine ⟨by decide +kernel, by decide +kernel, by decide +kernel, ?_, ?_, by decide +kernel, by decide +kernel, by decide +kernel, by decide +kernel, by decide⟩
  · intro e he h1 h2
    have : e.value = str "0x" ++ hexText 0x4006#32 := by revert e; decide +kernel
    rw [this]
    exact ⟨by decide +kernel, _, _, rfl, Or.inr (Or.inl rfl), numeral_toDigits 16 (by decide) _, toDigits_ne 16 _⟩
  · intro e he h1 h2
    have : e.value = [] ++ hexText 6#32 := by revert e; decide +kernel
    rw [this]
    exact ⟨by decide +kernel, _, _, rfl, Or.inl rfl, numeral_toDigits 16 (by decide) _, toDigits_ne 16 _⟩

/-- C49: an engine with a name is requested, and its file arrives. -/
example : ∃ (w : World) (first : CanFrame) (rest : List CanFrame) (pad : Nat) (u : World),
    WireStream first rest caseEngine (.filler (List.replicate pad 0#8)) ∧
    w.run ([.parserStart 0 (some 7), .requestEngine 3 (some 0)] ++ (first :: rest).map .handle) = .ok u ∧
    (u.engines 3).data.uid = 0x4006#32 ∧ (u.engines 3).data.address = ⟨6#32⟩ ∧ cstr (u.engines 3).protocol = .ok (str "mm2_prg") := by
  let eng : Locomotive := { Locomotive.construct (List.replicate 8 0#8) with info := { availability := .NAME_KNOWN, name := str "BR 12" ++ List.replicate 12 0#8 } }
  obtain ⟨w, -, h2, h3, h4, h5, h6, h7, h8⟩ := started (fun _ => .loco ⟨.obj 3, .obj 9⟩) (fun _ => eng)
  obtain ⟨first, rest, pad, hw, -⟩ := wire_exists caseEngine (by decide +kernel) (by decide +kernel) (by decide) (by decide +kernel)
  obtain ⟨v, u, g1, g2, g3, g4, g5, -⟩ := C49_download_partial w h2 h3 (by rw [h4]) 5 h5 0 7 3 9 ⟨.obj 3, .obj 9⟩ (by rw [h6]) rfl rfl
    (by rw [h7]; unfold Terminated; decide) (by rw [h7]; rfl) (by rw [h8]; decide) _
    (.engine 3 (by rw [h7]; rfl) (by rw [h7]; unfold Terminated; decide) (Or.inl h8)) first rest _ _ hw _ _ _ caseEngine_file.matched
  refine ⟨w, first, rest, pad, u, hw, ?_, g3, g4, g5⟩
  rw [World.run_append, g1]
  exact g2

/-- A list with three engines. -/
def caseList : List Item :=
  [.section [] (str "loknamen"), .entry (str "\n ") (str "name") (str "BR 12"), .entry (str " ") (str "nr") (str "0x1"),
    .section [] (str "loknamen"), .entry (str "\n ") (str "name") (str "Re 460"), .section [] (str "numloks"),
    .entry (str "\n ") (str "wert") ((Nat.toDigits 10 47).map ch)]

theorem caseList_file : NamedListFile (entriesOf [] caseList) [str "BR 12", str "0x1", str "Re 460"] 47#8 := by
  refine ⟨by decide +kernel, by decide +kernel, by decide +kernel, by decide +kernel, ?_, by decide +kernel⟩
  intro e he h1 h2
  have : e.value = (Nat.toDigits 10 47).map ch := by revert e; decide +kernel
  rw [this]
  exact ⟨by decide +kernel, numeral_toDigits 10 (by decide) 47, toDigits_ne 10 _⟩

/-- C51: the list is requested and arrives. The code takes every line of section `loknamen` for a name, so the second entry is not an
engine's name. -/
example : ∃ (w : World) (first : CanFrame) (rest : List CanFrame) (pad : Nat) (u : World) (d : LocoListConsumer),
    WireStream first rest caseList (.filler (List.replicate pad 0#8)) ∧
    w.run ([.parserStart 0 (some 7), .requestEngineList 0#8 (some 0)] ++ (first :: rest).map .handle) = .ok u ∧
    u.consumers 7 = .list d ∧ Shows d [str "BR 12", str "0x1"] ∧ d.numEnginesKnownByMaster = some 47#8 := by
  let l : LocoListConsumer := { LocoListConsumer.construct with streamEndCallback := .obj 9 }
  obtain ⟨w, -, h2, h3, h4, h5, h6, h7, h8⟩ := started (fun _ => .list l) (fun _ => Locomotive.construct [])
  obtain ⟨first, rest, pad, hw, -⟩ := wire_exists caseList (by decide +kernel) (by decide +kernel) (by decide) (by decide +kernel)
  obtain ⟨v, u, d, g1, g2, g3, g4, g5, -⟩ := C51_download_partial w h2 h3 (by rw [h4]; decide) 5 h5 0 7 9 l (by rw [h6]) ⟨by decide, rfl⟩ rfl
    (by rw [h8]; decide) _ (.engineList 0#8) first rest _ _ hw _ _ caseList_file.matched
  refine ⟨w, first, rest, pad, u, d, hw, ?_, g3, g4, g5⟩
  rw [World.run_append, g1]
  exact g2

end RR32
