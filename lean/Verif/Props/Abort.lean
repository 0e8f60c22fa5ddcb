import Verif.Proofs.Histories
import Verif.Props.EngineList
import Verif.Props.Engine
import Verif.Props.Stream

/-! # C52, C53: how downloads end -/

set_option autoImplicit false

namespace RR32

open Spec

/-! ## C52 -/

/-- No names, no engines counted, not complete. -/
def IsCleared (l : LocoListConsumer) : Prop :=
  (∀ i ∈ l.engineInfo, shown i = none ∧ text i.name = []) ∧ l.numEnginesKnownByMaster = some 0#8 ∧ l.streamComplete = some false

theorem reset_cleared (l : LocoListConsumer) : IsCleared l.reset := by
  refine ⟨?_, rfl, rfl⟩
  intro i hi
  simp only [LocoListConsumer.reset, LocoListConsumer.clearTable, List.mem_map] at hi
  obtain ⟨j, -, rfl⟩ := hi
  exact ⟨rfl, rfl⟩

/-- C52, on the list itself: in every state, an abort clears it, and the callback sees it cleared. -/
theorem C52_list_abort (l : LocoListConsumer) (cb : Option Nat) (h : l.streamEndCallback = Ptr.ofOption cb) :
    ∃ l' ends, l.setStreamAborted = .ok (l', ends) ∧ IsCleared l' ∧ (∀ e ∈ ends, e.complete = false ∧ IsCleared e.seen) ∧
      ends.map (fun e => e.callback) = cb.toList := by
  cases cb with
  | none =>
    refine ⟨_, [], ?_, reset_cleared l, by simp, rfl⟩
    simp only [LocoListConsumer.setStreamAborted, bind, Except.bind, show l.reset.streamEndCallback = .null from h, Ptr.read]
    rfl
  | some n =>
    refine ⟨_, [⟨n, false, l.reset⟩], ?_, reset_cleared l, ?_, rfl⟩
    · simp only [LocoListConsumer.setStreamAborted, bind, Except.bind, show l.reset.streamEndCallback = .obj n from h, Ptr.read]
      rfl
    · intro e he
      rw [List.mem_singleton.mp he]
      exact ⟨rfl, reset_cleared l⟩

/-- C52: the list object itself is empty once it was told of an abort, in every state of the program. -/
theorem C52_list_after (w w' : World) (c : Nat) (l : LocoListConsumer) (hc : w.consumers c = .list l)
    (h : w.callConsumer ⟨c, .aborted⟩ = .ok w') : ∃ l', w'.consumers c = .list l' ∧ IsCleared l' ∧
      (∀ m, m ≠ c → w'.consumers m = w.consumers m) := by
  simp only [World.callConsumer, World.logAll, hc] at h
  obtain ⟨⟨l', ends⟩, h1, h2⟩ := bind_ok h
  cases h2
  unfold LocoListConsumer.setStreamAborted at h1
  obtain ⟨cb, -, h1⟩ := bind_ok h1
  cases h1
  exact ⟨l.reset, by simp [World.setConsumer], reset_cleared l, fun m hm => by simp [World.setConsumer, hm]⟩

/-- The consumer is an engine list. -/
def Consumer.isList : Consumer → Bool
  | .list _ => true
  | _ => false

/-- A notification of an abort as it should be, `isList` telling which consumers are lists. -/
def AbortSeen (isList : Nat → Bool) (e : LogEntry) : Prop :=
  ∀ cb c s, e = .streamEnd cb c false s → (isList c = true → ∃ l, s = .list l ∧ IsCleared l) ∧ (isList c = false → s = .nothing)

/-- Consumers keep their kind, and what is appended to the log are notifications as they should be. -/
def GoodAborts (w w' : World) : Prop :=
  (∀ c, (w'.consumers c).isList = (w.consumers c).isList) ∧
    ∃ l, w'.log = w.log ++ l ∧ ∀ e ∈ l, AbortSeen (fun c => (w.consumers c).isList) e

theorem goodAborts_same {w w' : World} (hc : w'.consumers = w.consumers) (hl : w'.log = w.log) : GoodAborts w w' :=
  ⟨fun c => by rw [hc], [], by rw [hl]; simp, by simp⟩

theorem setConsumer_kind (w : World) (n : Nat) (c : Consumer) (h : c.isList = (w.consumers n).isList) (m : Nat) :
    ((w.setConsumer n c).consumers m).isList = (w.consumers m).isList := by
  simp only [World.setConsumer]
  split
  · next e => rw [e, h]
  · rfl

theorem goodAborts_frame : World.Frame GoodAborts where
  refl w := goodAborts_same rfl rfl
  trans := by
    rintro a b c ⟨h1, l1, e1, n1⟩ ⟨h2, l2, e2, n2⟩
    refine ⟨fun x => (h2 x).trans (h1 x), l1 ++ l2, by rw [e2, e1, List.append_assoc], ?_⟩
    intro e he
    rcases List.mem_append.mp he with he | he
    · exact n1 e he
    · have := n2 e he
      simp only [h1] at this
      exact this
  parser w n p := goodAborts_same rfl rfl
  station w s := goodAborts_same rfl rfl
  call w c := by
    refine ⟨fun _ => rfl, _, rfl, ?_⟩
    intro e he cb n s h
    rw [List.mem_singleton.mp he] at h
    cases h
  consumer := by
    intro w w' c h
    have one : ∀ e ∈ [LogEntry.consumer c], AbortSeen (fun c => (w.consumers c).isList) e := by
      intro e he cb n s h
      rw [List.mem_singleton.mp he] at h
      cases h
    rcases World.callConsumer_cases h with ⟨l, s, k, v, es, h1, h2, h3, rfl⟩ | ⟨l, es, ends, h1, h2, h3, rfl⟩ | ⟨l, ends, h1, h2, h3, rfl⟩ |
      ⟨l, s, k, v, l', h1, h2, h3, rfl⟩ | ⟨l, l', ends, h1, h2, h3, rfl⟩ | ⟨l, l', ends, h1, h2, h3, rfl⟩ | ⟨h1, rfl⟩
    · exact ⟨fun _ => rfl, _, rfl, one⟩
    · refine ⟨fun _ => rfl, [.consumer c] ++ World.endLog c.consumer .engine ends, by simp [World.logAll], ?_⟩
      intro e he
      rcases List.mem_append.mp he with he | he
      · exact one e he
      · intro cb n s hh
        simp only [World.endLog, List.mem_map] at he
        obtain ⟨x, hx, rfl⟩ := he
        have hcomplete : x.complete = true := by
          unfold LocoConsumer.setStreamComplete at h3
          obtain ⟨r, -, h3⟩ := bind_ok h3
          cases r with
          | none => cases h3; cases hx
          | some m =>
            obtain ⟨-, -, h3⟩ := bind_ok h3
            obtain ⟨cb, -, h3⟩ := bind_ok h3
            cases h3
            cases cb with
            | none => cases hx
            | some k => rw [endCalls, List.mem_singleton] at hx; rw [hx]
        rw [hcomplete] at hh
        cases hh
    · refine ⟨fun _ => rfl, [.consumer c] ++ World.endLog c.consumer (fun _ => .nothing) ends, by simp [World.logAll], ?_⟩
      intro e he
      rcases List.mem_append.mp he with he | he
      · exact one e he
      · intro cb n s hh
        simp only [World.endLog, List.mem_map] at he
        obtain ⟨x, hx, rfl⟩ := he
        injection hh with _ e1 _ e2
        subst e1 e2
        exact ⟨fun hk => (by simp only [h1] at hk; cases hk), fun _ => rfl⟩
    · exact ⟨setConsumer_kind (w.logAll [.consumer c]) _ _ (by show _ = (w.consumers c.consumer).isList; rw [h1]; rfl), _, rfl, one⟩
    · refine ⟨setConsumer_kind (w.logAll [.consumer c]) _ _ (by show _ = (w.consumers c.consumer).isList; rw [h1]; rfl),
        [.consumer c] ++ World.endLog c.consumer .list ends, by simp [World.logAll, World.setConsumer], ?_⟩
      intro e he
      rcases List.mem_append.mp he with he | he
      · exact one e he
      · intro cb n s hh
        simp only [World.endLog, List.mem_map] at he
        obtain ⟨x, hx, rfl⟩ := he
        have hcomplete : x.complete = true := by
          unfold LocoListConsumer.setStreamComplete at h3
          obtain ⟨cb, -, h3⟩ := bind_ok h3
          cases h3
          cases cb with
          | none => cases hx
          | some k => rw [endCalls, List.mem_singleton] at hx; rw [hx]
        rw [hcomplete] at hh
        cases hh
    · refine ⟨setConsumer_kind (w.logAll [.consumer c]) _ _ (by show _ = (w.consumers c.consumer).isList; rw [h1]; rfl),
        [.consumer c] ++ World.endLog c.consumer .list ends, by simp [World.logAll, World.setConsumer], ?_⟩
      intro e he
      rcases List.mem_append.mp he with he | he
      · exact one e he
      · intro cb n s hh
        simp only [World.endLog, List.mem_map] at he
        obtain ⟨x, hx, rfl⟩ := he
        have hseen : IsCleared x.seen := by
          unfold LocoListConsumer.setStreamAborted at h3
          obtain ⟨cb, -, h3⟩ := bind_ok h3
          cases h3
          cases cb with
          | none => cases hx
          | some k => rw [endCalls, List.mem_singleton] at hx; rw [hx]; exact reset_cleared l
        injection hh with _ e1 _ e2
        subst e1 e2
        exact ⟨fun _ => ⟨_, rfl, hseen⟩, fun hk => by simp only [h1] at hk; cases hk⟩
    · exact ⟨fun _ => rfl, _, rfl, one⟩

theorem own_goodAborts {w w' : World} {op : Op} (ho : Op.isOwn op = true) (h : w.step op = .ok w') : GoodAborts w w' := by
  have upd : ∀ (n : Nat) (c : Consumer), c.isList = (w.consumers n).isList → GoodAborts w (w.setConsumer n c) :=
    fun n c hc => ⟨setConsumer_kind w n c hc, [], by simp [World.setConsumer], by simp⟩
  cases op <;> first | (cases ho; done) | skip
  case setName e name =>
    obtain ⟨l, -, h⟩ := bind_ok h
    cases h
    exact goodAborts_same rfl rfl
  case assignEngine e l => cases h; exact goodAborts_same rfl rfl
  all_goals
    simp only [World.step] at h
    split at h <;> cases h <;> first | exact goodAborts_same rfl rfl | (rename_i hc; exact upd _ _ (by rw [hc]; rfl))

/-- C52. In every history, every notification of an abort about an engine list sees the list cleared. -/
theorem C52_list (w w' : World) (ops : List Op) (h : w.run ops = .ok w') :
    ∃ l, w'.log = w.log ++ l ∧ ∀ cb c s, .streamEnd cb c false s ∈ l → (w.consumers c).isList = true → ∃ x, s = .list x ∧ IsCleared x := by
  obtain ⟨-, l, h1, h2⟩ := goodAborts_frame.run own_goodAborts h
  exact ⟨l, h1, fun cb c s hm hl => (h2 _ hm cb c s rfl).1 hl⟩

/-- Unless a consumer is told that a stream is complete, the engines keep name and availability. -/
def KeepsInfo (w w' : World) : Prop :=
  ∃ l, w'.log = w.log ++ l ∧ ((∀ n, .consumer ⟨n, .complete⟩ ∉ l) → ∀ k, (w'.engines k).info = (w.engines k).info)

theorem keepsInfo_same {w w' : World} (l : List LogEntry) (hl : w'.log = w.log ++ l) (he : w'.engines = w.engines) : KeepsInfo w w' :=
  ⟨l, hl, fun _ _ => by rw [he]⟩

theorem setProtocol_info {l k : Locomotive} {m : List Byte} (h : l.setProtocolString m = .ok k) : k.info = l.info := by
  unfold Locomotive.setProtocolString at h
  obtain ⟨mem, -, h⟩ := bind_ok h
  cases h
  rfl

theorem consumeOn_info {pf : Platform} {e e' : Locomotive} {s k v : BufferManager} (h : LocoConsumer.consumeOn pf e s k v = .ok e') :
    e'.info = e.info := by
  unfold LocoConsumer.consumeOn at h
  obtain ⟨b1, -, h⟩ := bind_ok h
  cases b1 with
  | false => cases h; rfl
  | true =>
    obtain ⟨b2, -, h⟩ := bind_ok h
    cases b2 with
    | true => obtain ⟨v, -, h⟩ := bind_ok h; cases h; rfl
    | false =>
      obtain ⟨b3, -, h⟩ := bind_ok h
      cases b3 with
      | true => exact setProtocol_info h
      | false =>
        obtain ⟨b4, -, h⟩ := bind_ok h
        cases b4 with
        | true => obtain ⟨v, -, h⟩ := bind_ok h; cases h; rfl
        | false => cases h; rfl

theorem keepsInfo_frame : World.Frame KeepsInfo where
  refl w := keepsInfo_same [] (by simp) rfl
  trans := by
    rintro a b c ⟨l1, e1, h1⟩ ⟨l2, e2, h2⟩
    refine ⟨l1 ++ l2, by rw [e2, e1, List.append_assoc], fun hn k => ?_⟩
    rw [h2 (fun n hm => hn n (List.mem_append_right _ hm)), h1 (fun n hm => hn n (List.mem_append_left _ hm))]
  parser w n p := keepsInfo_same [] (by simp [World.setParser]) rfl
  station w s := keepsInfo_same [] (by simp) rfl
  call w c := keepsInfo_same _ rfl rfl
  consumer := by
    intro w w' c h
    rcases World.callConsumer_cases h with ⟨l, s, k, v, es, h1, h2, h3, rfl⟩ | ⟨l, es, ends, h1, h2, h3, rfl⟩ | ⟨l, ends, h1, h2, h3, rfl⟩ |
      ⟨l, s, k, v, l', h1, h2, h3, rfl⟩ | ⟨l, l', ends, h1, h2, h3, rfl⟩ | ⟨l, l', ends, h1, h2, h3, rfl⟩ | ⟨h1, rfl⟩
    · refine ⟨_, rfl, fun _ n => ?_⟩
      unfold LocoConsumer.consumeConfigData at h3
      obtain ⟨r, -, h3⟩ := bind_ok h3
      cases r with
      | none => cases h3; rfl
      | some m =>
        obtain ⟨e, h4, h3⟩ := bind_ok h3
        cases h3
        show (Engines.set w.engines m e n).info = _
        unfold Engines.set
        split
        · next he => rw [he]; exact consumeOn_info h4
        · rfl
    · refine ⟨[.consumer c] ++ World.endLog c.consumer .engine ends, by simp [World.logAll], fun hn => ?_⟩
      exact absurd (List.mem_append_left _ (List.mem_singleton.mpr (by obtain ⟨x, y⟩ := c; simp only at h2; rw [h2]))) (hn c.consumer)
    · exact keepsInfo_same ([.consumer c] ++ World.endLog c.consumer (fun _ => .nothing) ends) (by simp [World.logAll]) rfl
    · exact keepsInfo_same _ rfl rfl
    · exact keepsInfo_same ([.consumer c] ++ World.endLog c.consumer .list ends) (by simp [World.logAll, World.setConsumer]) rfl
    · exact keepsInfo_same ([.consumer c] ++ World.endLog c.consumer .list ends) (by simp [World.logAll, World.setConsumer]) rfl
    · exact keepsInfo_same _ rfl rfl

/-- The application itself changes an engine. -/
def Op.changesEngine : Op → Bool
  | .setName .. | .assignEngine .. => true
  | _ => false

/-- C52. In every history in which no consumer is told that a stream is complete, and in which the application does not change the
engines itself, no engine becomes fully known, whatever streams are started, received, and aborted. -/
theorem C52_engine (w w' : World) (ops : List Op) (h : w.run ops = .ok w') (hops : ∀ op ∈ ops, op.changesEngine = false) :
    ∃ l, w'.log = w.log ++ l ∧ ((∀ n, .consumer ⟨n, .complete⟩ ∉ l) → ∀ k, (w'.engines k).info = (w.engines k).info) := by
  refine foldlM_inv_mem World.step (KeepsInfo w) ops ?_ w w' (keepsInfo_frame.refl w) h
  intro b op b' hm hb hs
  refine keepsInfo_frame.trans hb ?_
  cases ho : op.isOwn with
  | false => exact keepsInfo_frame.step ho hs
  | true =>
    have hc := hops op hm
    cases op <;> first | (cases ho; done) | (cases hc; done) | skip
    all_goals
      simp only [World.step] at hs
      split at hs <;> cases hs <;> exact keepsInfo_same [] (by simp [World.setConsumer]) rfl

/-- C52, on the engine: an abort in any state changes no engine and is told to the callback. -/
theorem C52_engine_abort (w w' : World) (c n : Nat) (l : LocoConsumer) (hc : w.consumers c = .loco l) (hl : l.streamEndCallback = .obj n)
    (h : w.callConsumer ⟨c, .aborted⟩ = .ok w') :
    w'.engines = w.engines ∧ w'.log = w.log ++ [.consumer ⟨c, .aborted⟩, .streamEnd n c false .nothing] := by
  simp only [World.callConsumer, World.logAll, hc, LocoConsumer.setStreamAborted, hl, Ptr.read, bind, Except.bind] at h
  cases h
  exact ⟨rfl, by simp [World.endLog, endCalls]⟩

/-- C52: a list with two names, aborted. -/
example : (∃ l' ends, ({ LocoListConsumer.construct with
        engineInfo := [⟨.NAME_KNOWN, str "V 100" ++ List.replicate 28 0#8⟩, ⟨.NAME_KNOWN, str "ICE" ++ List.replicate 30 0#8⟩],
        numEnginesKnownByMaster := some 2#8, streamEndCallback := .obj 4 } : LocoListConsumer).setStreamAborted = .ok (l', ends) ∧
      l'.engineInfo.map shown = [none, none] ∧ ends = [⟨4, false, l'⟩]) := ⟨_, _, rfl, by decide, rfl⟩

/-! ## C53 -/

/-- C53 is false: a stream with a line that is too long is reported complete if the checksum is right, on every reachable parser that is
looking for a line and has a consumer. The consumer is told entries of the lines before, then errors. -/
theorem C53_false (p : StreamParser) (hp : ReachableStream p) (n : Nat) (hn : p.consumer = some n)
    (hl : p.text.state = .LOOKING_FOR_KEY_OR_SECTION_START)
    (first : Data) (hf : IsFirst first) (ds : List Data) (hd : AreData ds) (hne : ds ≠ []) (hlen : announcedLength first = 8 * ds.length)
    (good : List Item) (bad : Item) (rest : List Byte) (hw : ∀ i ∈ good, i.WellFormed) (hfit : ∀ i ∈ good, i.Fits) (hb : bad.WellFormed)
    (hnb : ¬bad.Fits) (hpay : payload ds = render good ++ (bad.render ++ rest)) (hcrc : IsCrcOf (announcedCrc first) (payload ds)) :
    ∃ q calls k, streamRun p (download first ds) = .ok (q, calls) ∧
      calls.map noticeOf = (entriesOf (content p.text.sect) good ++ List.replicate (k + 1) Entry.error).map (fun e => (n, .entry e)) ++ [(n, .complete)] := by
  obtain ⟨q, calls, evs, fin, h1, h2, h3, h4, -⟩ := C40_download p hp first hf ds hd hne hlen
  obtain ⟨ht, hcons⟩ := sinv_reachable_text p hp
  have hi : ∀ i ∈ ds.map packetBuffer, BufOk i ∧ (content i).length ≤ 30 := by
    intro i hi
    obtain ⟨d, -, rfl⟩ := List.mem_map.mp hi
    exact ⟨ofc.ok (by simp [packetBytes]) (by decide), by rw [packetBuffer, ofc.content_eq]; simp [packetBytes]⟩
  have heq : ((ds.map packetBuffer).map content).flatten = render good ++ (bad.render ++ rest) := by
    rw [← hpay, List.map_map, show (ds.map (content ∘ packetBuffer)) = ds.map packetBytes from
      List.map_congr_left (fun d _ => ofc.content_eq ..), payload_flatten]
  obtain ⟨q', evs', k, g1, -, g3⟩ := C36_reported p.text ht hl good bad rest hw hfit hb hnb _ hi heq
  rw [h2] at g1
  cases g1
  refine ⟨q, calls, k, h1, ?_⟩
  rw [h3, g3, hcons, hn, (h4 hcrc).1]
  simp [tell, say]

/-- What holds of C53: a stream with a line that is too long is never reported complete without the consumer having been told an error
before. Missing: that it is not reported complete, which is false (`C53_false`). -/
theorem C53_told_partial (p : StreamParser) (hp : ReachableStream p) (n : Nat) (hn : p.consumer = some n)
    (hl : p.text.state = .LOOKING_FOR_KEY_OR_SECTION_START)
    (first : Data) (hf : IsFirst first) (ds : List Data) (hd : AreData ds) (hne : ds ≠ []) (hlen : announcedLength first = 8 * ds.length)
    (good : List Item) (bad : Item) (rest : List Byte) (hw : ∀ i ∈ good, i.WellFormed) (hfit : ∀ i ∈ good, i.Fits) (hb : bad.WellFormed)
    (hnb : ¬bad.Fits) (hpay : payload ds = render good ++ (bad.render ++ rest)) :
    ∃ q calls es fin, streamRun p (download first ds) = .ok (q, calls) ∧ calls.map noticeOf = es ++ [(n, fin)] ∧ fin.isEnd = true ∧
      (n, .entry .error) ∈ es ∧ (¬IsCrcOf (announcedCrc first) (payload ds) → fin = .aborted) := by
  obtain ⟨q, calls, evs, fin, h1, h2, h3, h4, h5, -⟩ := C40_download p hp first hf ds hd hne hlen
  obtain ⟨ht, hcons⟩ := sinv_reachable_text p hp
  have hi : ∀ i ∈ ds.map packetBuffer, BufOk i ∧ (content i).length ≤ 30 := by
    intro i hi
    obtain ⟨d, -, rfl⟩ := List.mem_map.mp hi
    exact ⟨ofc.ok (by simp [packetBytes]) (by decide), by rw [packetBuffer, ofc.content_eq]; simp [packetBytes]⟩
  have heq : ((ds.map packetBuffer).map content).flatten = render good ++ (bad.render ++ rest) := by
    rw [← hpay, List.map_map, show (ds.map (content ∘ packetBuffer)) = ds.map packetBytes from
      List.map_congr_left (fun d _ => ofc.content_eq ..), payload_flatten]
  obtain ⟨q', evs', k, g1, -, g3⟩ := C36_reported p.text ht hl good bad rest hw hfit hb hnb _ hi heq
  rw [h2] at g1
  cases g1
  refine ⟨q, calls, (evs.map told).map (fun x => (x.1, .entry x.2)), fin, h1, by rw [h3, hn]; rfl, ?_, ?_, fun h => (h5 h).1⟩
  · by_cases hc : IsCrcOf (announcedCrc first) (payload ds)
    · rw [(h4 hc).1]; rfl
    · rw [(h5 hc).1]; rfl
  · rw [g3, hcons, hn]
    simp [tell, List.replicate_succ]

/-- C53: a section name of 13 characters in a stream with the right checksum. -/
theorem C53_case :
    let ds : List Data := [{ dlc := 8#8, b0 := ch '[', b1 := ch 'a', b2 := ch 'b', b3 := ch 'c', b4 := ch 'd', b5 := ch 'e', b6 := ch 'f', b7 := ch 'g' },
      { dlc := 8#8, b0 := ch 'h', b1 := ch 'i', b2 := ch 'j', b3 := ch 'k', b4 := ch 'l', b5 := ch 'm', b6 := ch ']', b7 := ch '\n' }]
    payload ds = render [] ++ ((Item.section [] (str "abcdefghijklm")).render ++ str "\n") ∧ ¬(Item.section [] (str "abcdefghijklm")).Fits ∧
    outcome (streamRun exampleStream (download (exampleFirst (crcOf (payload ds))) ds)) =
      some (.STREAM_DONE, some 3, [(3, .entry .error), (3, .complete)]) := by
  refine ⟨by decide, by simp [Item.Fits, str, maxSection], by decide +kernel⟩

end RR32
