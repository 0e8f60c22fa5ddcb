import Verif.Proofs.World

/-! # Relations between the states of the program before and after a history -/

set_option autoImplicit false

namespace RR32

namespace World

/-- A relation between states that holds across everything the library does. -/
structure Frame (R : World → World → Prop) : Prop where
  refl : ∀ w, R w w
  trans : ∀ {a b c}, R a b → R b c → R a c
  consumer : ∀ {w w' c}, w.callConsumer c = .ok w' → R w w'
  parser : ∀ w n p, R w (w.setParser n p)
  call : ∀ w c, R w (w.logAll [.call c])
  station : ∀ w s, R w { w with station := s }

variable {R : World → World → Prop}

theorem Frame.callConsumers (F : Frame R) {w w' : World} {cs : List ConsumerCall} (h : w.callConsumers cs = .ok w') : R w w' :=
  foldlM_inv World.callConsumer (R w) (fun _ _ _ hb hs => F.trans hb (F.consumer hs)) cs w w' (F.refl w) h

theorem Frame.parserAdd (F : Frame R) {w w' : World} {n : Nat} {d : Data} (h : w.parserAdd n d = .ok w') : R w w' := by
  obtain ⟨⟨p, calls⟩, -, h2⟩ := bind_ok h
  exact F.trans (F.parser w n p) (F.callConsumers h2)

theorem Frame.parserReset (F : Frame R) {w w' : World} {n : Nat} (h : w.parserReset n = .ok w') : R w w' := by
  obtain ⟨⟨p, calls⟩, -, h2⟩ := bind_ok h
  exact F.trans (F.parser w n p) (F.callConsumers h2)

theorem Frame.runCall (F : Frame R) {w w' : World} {c : Call} (h : w.runCall c = .ok w') : R w w' := by
  unfold World.runCall at h
  split at h
  · cases h; exact F.parser ..
  · exact F.parserAdd h
  · exact F.parserReset h
  · cases h; exact F.call ..

theorem Frame.runCalls (F : Frame R) {w w' : World} {cs : List Call} (h : w.runCalls cs = .ok w') : R w w' :=
  foldlM_inv World.runCall (R w) (fun _ _ _ hb hs => F.trans hb (F.runCall hs)) cs w w' (F.refl w) h

theorem Frame.stationCalls (F : Frame R) {w w' : World} {r : Res (List Call)} (h : w.stationCalls r = .ok w') : R w w' := by
  obtain ⟨cs, -, h2⟩ := bind_ok h
  exact F.runCalls h2

theorem Frame.stationUpdate (F : Frame R) {w w' : World} {r : Res (Station × List Call)} (h : w.stationUpdate r = .ok w') : R w w' := by
  obtain ⟨⟨s, cs⟩, -, h2⟩ := bind_ok h
  exact F.trans (F.station w s) (F.runCalls h2)

end World

/-- The calls an application makes on its own consumers and engines. -/
def Op.isOwn : Op → Bool
  | .setEngine .. | .setEndCallback .. | .setStreamOffset .. | .clearTable .. | .resetList .. | .setName .. | .assignEngine .. => true
  | _ => false

namespace World

variable {R : World → World → Prop}

/-- A frame relation holds across every call that is not on the application's own consumers and engines. -/
theorem Frame.step (F : Frame R) {w w' : World} {op : Op} (ho : op.isOwn = false) (h : w.step op = .ok w') : R w w' := by
  cases op with
  | begin_ _ _ => exact F.stationUpdate h
  | handle _ => exact F.stationCalls h
  | finish => exact F.stationUpdate h
  | abort => exact F.stationUpdate h
  | notifyReceived => exact F.stationUpdate h
  | requestEngine _ _ => exact F.stationUpdate h
  | requestShortInfo _ _ => exact F.stationUpdate h
  | requestEngineList _ _ => exact F.stationUpdate h
  | requestDirection _ => exact F.stationCalls h
  | sendDirection _ _ => exact F.stationCalls h
  | requestVelocity _ => exact F.stationCalls h
  | sendVelocity _ _ => exact F.stationCalls h
  | requestFunction _ _ => exact F.stationCalls h
  | requestAllFunctions _ => exact F.stationCalls h
  | sendFunction _ _ _ => exact F.stationCalls h
  | sendEmergencyStop _ => exact F.stationCalls h
  | sendStop => exact F.stationCalls h
  | sendGo => exact F.stationCalls h
  | sendAccessory _ _ _ _ => exact F.stationCalls h
  | sendPacket _ => exact F.stationCalls h
  | parserStart n c => cases h; exact F.parser ..
  | parserStartStream n => cases h; exact F.parser ..
  | parserAdd n d => exact F.parserAdd h
  | parserReset n => exact F.parserReset h
  | setEngine _ _ => cases ho
  | setEndCallback _ _ => cases ho
  | setStreamOffset _ _ => cases ho
  | clearTable _ => cases ho
  | resetList _ => cases ho
  | setName _ _ => cases ho
  | assignEngine _ _ => cases ho

/-- A frame relation that also holds across the calls on own consumers and engines holds across histories. -/
theorem Frame.run (F : Frame R) (own : ∀ {w w' op}, Op.isOwn op = true → w.step op = .ok w' → R w w') {w w' : World} {ops : List Op}
    (h : w.run ops = .ok w') : R w w' := by
  refine foldlM_inv World.step (R w) ?_ ops w w' (F.refl w) h
  intro b op b' hb hs
  refine F.trans hb ?_
  cases ho : op.isOwn with
  | true => exact own ho hs
  | false => exact F.step ho hs

/-- What the seven kinds of calls on consumers do to the program. -/
theorem callConsumer_cases {w w' : World} {c : ConsumerCall} (h : w.callConsumer c = .ok w') :
    (∃ l s k v es, w.consumers c.consumer = .loco l ∧ c.action = .consume s k v ∧ l.consumeConfigData w.pf w.engines s k v = .ok es ∧
      w' = { w.logAll [.consumer c] with engines := es }) ∨
    (∃ l es ends, w.consumers c.consumer = .loco l ∧ c.action = .complete ∧ l.setStreamComplete w.engines = .ok (es, ends) ∧
      w' = { w.logAll [.consumer c] with engines := es }.logAll (endLog c.consumer .engine ends)) ∨
    (∃ l ends, w.consumers c.consumer = .loco l ∧ c.action = .aborted ∧ l.setStreamAborted = .ok ends ∧
      w' = (w.logAll [.consumer c]).logAll (endLog c.consumer (fun _ => .nothing) ends)) ∨
    (∃ l s k v l', w.consumers c.consumer = .list l ∧ c.action = .consume s k v ∧ l.consumeConfigData w.pf s k v = .ok l' ∧
      w' = (w.logAll [.consumer c]).setConsumer c.consumer (.list l')) ∨
    (∃ l l' ends, w.consumers c.consumer = .list l ∧ c.action = .complete ∧ l.setStreamComplete = .ok (l', ends) ∧
      w' = ((w.logAll [.consumer c]).setConsumer c.consumer (.list l')).logAll (endLog c.consumer .list ends)) ∨
    (∃ l l' ends, w.consumers c.consumer = .list l ∧ c.action = .aborted ∧ l.setStreamAborted = .ok (l', ends) ∧
      w' = ((w.logAll [.consumer c]).setConsumer c.consumer (.list l')).logAll (endLog c.consumer .list ends)) ∨
    (w.consumers c.consumer = .app ∧ w' = w.logAll [.consumer c]) := by
  unfold callConsumer at h
  simp only [show (w.logAll [.consumer c]).consumers = w.consumers from rfl] at h
  cases hc : w.consumers c.consumer with
  | app => rw [hc] at h; cases h; exact .inr (.inr (.inr (.inr (.inr (.inr ⟨rfl, rfl⟩)))))
  | loco l =>
    rw [hc] at h
    cases ha : c.action with
    | consume s k v =>
      rw [ha] at h
      obtain ⟨es, h1, h2⟩ := bind_ok h
      cases h2
      exact .inl ⟨l, s, k, v, es, rfl, rfl, h1, rfl⟩
    | complete =>
      rw [ha] at h
      obtain ⟨⟨es, ends⟩, h1, h2⟩ := bind_ok h
      cases h2
      exact .inr (.inl ⟨l, es, ends, rfl, rfl, h1, rfl⟩)
    | aborted =>
      rw [ha] at h
      obtain ⟨ends, h1, h2⟩ := bind_ok h
      cases h2
      exact .inr (.inr (.inl ⟨l, ends, rfl, rfl, h1, rfl⟩))
  | list l =>
    rw [hc] at h
    cases ha : c.action with
    | consume s k v =>
      rw [ha] at h
      obtain ⟨l', h1, h2⟩ := bind_ok h
      cases h2
      exact .inr (.inr (.inr (.inl ⟨l, s, k, v, l', rfl, rfl, h1, rfl⟩)))
    | complete =>
      rw [ha] at h
      obtain ⟨⟨l', ends⟩, h1, h2⟩ := bind_ok h
      cases h2
      exact .inr (.inr (.inr (.inr (.inl ⟨l, l', ends, rfl, rfl, h1, rfl⟩))))
    | aborted =>
      rw [ha] at h
      obtain ⟨⟨l', ends⟩, h1, h2⟩ := bind_ok h
      cases h2
      exact .inr (.inr (.inr (.inr (.inr (.inl ⟨l, l', ends, rfl, rfl, h1, rfl⟩)))))

end World

end RR32
