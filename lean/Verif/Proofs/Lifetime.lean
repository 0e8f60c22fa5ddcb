import Verif.Spec.Lifetime
import Verif.Proofs.Histories

/-! # Pointers and destroyed objects -/

set_option autoImplicit false

namespace RR32

/-! ## What the text parser calls -/

/-- The parser keeps its consumer, and calls only it. -/
def Calls (c : Option Nat) (q : TextParser) (evs : List ParseEvent) : Prop := q.consumer = c ∧ ∀ e ∈ evs, c = some e.consumer

theorem emit_calls (p : TextParser) : ∀ e ∈ p.emit, p.consumer = some e.consumer := by
  intro e he
  unfold TextParser.emit at he
  split at he
  · cases he
  · rename_i c hc
    rw [List.mem_singleton] at he
    rw [he, hc]

theorem reportParseError_calls {p q : TextParser} {evs : List ParseEvent} (h : p.reportParseError = .ok (q, evs)) : Calls p.consumer q evs := by
  obtain ⟨a, -, h⟩ := bind_ok h
  obtain ⟨b, -, h⟩ := bind_ok h
  obtain ⟨c, -, h⟩ := bind_ok h
  cases h
  exact ⟨rfl, emit_calls { p with state := .ERROR, sect := a, key := b, value := c }⟩

theorem withDest_consumer (p : TextParser) (d : TextParser.Dest) (b : BufferManager) : (p.withDest d b).consumer = p.consumer := by
  cases d <;> rfl

theorem storeToken_calls {p q : TextParser} {offset : Nat} {d : TextParser.Dest} {r r' : TextParser.FindTokenResult} {evs : List ParseEvent}
    (h : p.storeToken offset d r = .ok (q, evs, r')) : Calls p.consumer q evs := by
  unfold TextParser.storeToken at h
  split at h
  · cases h; exact ⟨rfl, by intro e he; cases he⟩
  · obtain ⟨⟨b, n⟩, -, h⟩ := bind_ok h
    dsimp only at h
    split at h
    · obtain ⟨⟨q', evs'⟩, h1, h⟩ := bind_ok h
      cases h
      have := reportParseError_calls h1
      rwa [withDest_consumer] at this
    · cases h; exact ⟨withDest_consumer .., by intro e he; cases he⟩

theorem findToken_calls {p q : TextParser} {offset : Nat} {chars : List Byte} {d : TextParser.Dest} {r : TextParser.FindTokenResult}
    {evs : List ParseEvent} (h : p.findToken offset chars d = .ok (q, evs, r)) : Calls p.consumer q evs := by
  obtain ⟨a, -, h⟩ := bind_ok h
  obtain ⟨⟨q', evs', r'⟩, h1, h⟩ := bind_ok h
  cases h
  exact storeToken_calls h1

theorem events_append {c : Option Nat} {q : TextParser} {a b : List ParseEvent} (ha : ∀ e ∈ a, c = some e.consumer) (h : Calls c q b) :
    Calls c q (a ++ b) :=
  ⟨h.1, fun e he => (List.mem_append.mp he).elim (ha e) (h.2 e)⟩

theorem processStep_calls {p q : TextParser} {n m : Nat} {stop : Bool} {evs : List ParseEvent} (h : p.processStep n = .ok (q, evs, m, stop)) :
    Calls p.consumer q evs := by
  unfold TextParser.processStep at h
  split at h
  · obtain ⟨⟨p1, e1, r⟩, h1, h⟩ := bind_ok h
    have hc := findToken_calls h1
    dsimp only at h
    split at h
    · obtain ⟨c, -, h⟩ := bind_ok h
      split at h
      · obtain ⟨s, -, h⟩ := bind_ok h
        cases h; exact ⟨hc.1, hc.2⟩
      · obtain ⟨c, -, h⟩ := bind_ok h
        split at h
        · cases h; exact ⟨hc.1, hc.2⟩
        · obtain ⟨⟨p2, e2⟩, h2, h⟩ := bind_ok h
          cases h
          have := reportParseError_calls h2
          rw [hc.1] at this
          exact events_append hc.2 this
    · cases h; exact hc
  · obtain ⟨⟨p1, e1, r⟩, h1, h⟩ := bind_ok h
    have hc := findToken_calls h1
    dsimp only at h
    split at h
    · cases h; exact ⟨hc.1, hc.2⟩
    · cases h; exact hc
  · obtain ⟨⟨p1, e1, r⟩, h1, h⟩ := bind_ok h
    have hc := findToken_calls h1
    dsimp only at h
    split at h
    · split at h
      · cases h; exact ⟨hc.1, hc.2⟩
      · split at h
        · obtain ⟨v, -, h⟩ := bind_ok h
          obtain ⟨k, -, h⟩ := bind_ok h
          cases h
          refine ⟨hc.1, (events_append (q := p1) hc.2 ⟨hc.1, ?_⟩).2⟩
          intro e he
          rw [← emit_calls _ e he]
          exact hc.1.symm
        · cases h; exact hc
    · cases h; exact hc
  · obtain ⟨⟨p1, e1, r⟩, h1, h⟩ := bind_ok h
    have hc := findToken_calls h1
    dsimp only at h
    split at h
    · obtain ⟨v, -, h⟩ := bind_ok h
      obtain ⟨k, -, h⟩ := bind_ok h
      cases h
      refine ⟨hc.1, (events_append (q := p1) hc.2 ⟨hc.1, ?_⟩).2⟩
      intro e he
      rw [← emit_calls _ e he]
      exact hc.1.symm
    · cases h; exact hc
  · cases h; exact ⟨rfl, by intro e he; cases he⟩
  · cases h; exact ⟨rfl, by intro e he; cases he⟩

theorem processLoop_calls (fuel : Nat) : ∀ (p q : TextParser) (n m : Nat) (evs : List ParseEvent), TextParser.processLoop fuel p n = .ok (q, evs, m) →
    Calls p.consumer q evs := by
  induction fuel with
  | zero => intro p q n m evs h; cases h
  | succ fuel ih =>
    intro p q n m evs h
    unfold TextParser.processLoop at h
    split at h
    · obtain ⟨⟨p1, e1, c, stop⟩, h1, h⟩ := bind_ok h
      have hc := processStep_calls h1
      dsimp only at h
      split at h
      · cases h; exact hc
      · obtain ⟨⟨p2, e2, c2⟩, h2, h⟩ := bind_ok h
        cases h
        have := ih _ _ _ _ _ h2
        rw [hc.1] at this
        exact events_append hc.2 this
    · cases h; exact ⟨rfl, by intro e he; cases he⟩

theorem addLoop_calls (fuel : Nat) : ∀ (p q : TextParser) (input : BufferManager) (n : Nat) (evs : List ParseEvent),
    TextParser.addLoop fuel p input n = .ok (q, evs) → Calls p.consumer q evs := by
  induction fuel with
  | zero => intro p q input n evs h; cases h
  | succ fuel ih =>
    intro p q input n evs h
    unfold TextParser.addLoop at h
    split at h
    · split at h
      · exact reportParseError_calls h
      · obtain ⟨⟨b, k⟩, -, h⟩ := bind_ok h
        obtain ⟨⟨p1, e1, c⟩, h1, h⟩ := bind_ok h
        obtain ⟨b2, -, h⟩ := bind_ok h
        obtain ⟨⟨p2, e2⟩, h2, h⟩ := bind_ok h
        cases h
        have hc : Calls p.consumer p1 e1 := processLoop_calls _ { p with buffer := b } _ _ _ _ h1
        have := ih _ _ _ _ _ h2
        rw [show ({ p1 with buffer := b2 } : TextParser).consumer = p1.consumer from rfl, hc.1] at this
        exact events_append hc.2 this
    · cases h; exact ⟨rfl, by intro e he; cases he⟩

theorem addText_calls {p q : TextParser} {input : BufferManager} {evs : List ParseEvent} (h : p.addText input = .ok (q, evs)) :
    Calls p.consumer q evs := by
  unfold TextParser.addText at h
  split at h
  · exact reportParseError_calls h
  · exact addLoop_calls _ _ _ _ _ _ h

/-! ## Pointers -/

theorem reset_has {p q : StreamParser} {cs : List ConsumerCall} (h : p.reset = .ok (q, cs)) :
    (∀ c, ¬q.has c) ∧ ∀ x ∈ cs, p.has x.consumer := by
  obtain ⟨q', h1, h⟩ := bind_ok h
  cases h
  obtain ⟨t, h2, h1⟩ := bind_ok h1
  cases h1
  refine ⟨?_, ?_⟩
  · rintro c (h | h)
    · cases h
    · unfold TextParser.reset at h2
      obtain ⟨_, -, h2⟩ := bind_ok h2
      obtain ⟨_, -, h2⟩ := bind_ok h2
      obtain ⟨_, -, h2⟩ := bind_ok h2
      obtain ⟨_, -, h2⟩ := bind_ok h2
      cases h2
      cases h
  · intro x hx
    unfold StreamParser.resetNotify at hx
    split at hx
    · unfold StreamParser.notify at hx
      split at hx
      · cases hx
      · rename_i c hc
        rw [List.mem_singleton] at hx
        rw [hx]
        exact Or.inl hc
    · cases hx

theorem notify_has (p : StreamParser) (a : ConsumerAction) : ∀ x ∈ p.notify a, p.consumer = some x.consumer := by
  intro x hx
  unfold StreamParser.notify at hx
  split at hx
  · cases hx
  · rename_i c hc
    rw [List.mem_singleton] at hx
    rw [hx]
    exact hc

theorem addMessage_has {p q : StreamParser} {d : Data} {cs : List ConsumerCall} (h : p.addMessage d = .ok (q, cs)) :
    (∀ c, q.has c → p.has c) ∧ ∀ x ∈ cs, p.has x.consumer := by
  have none : ∀ x ∈ ([] : List ConsumerCall), p.has x.consumer := by intro x hx; cases hx
  have viaReset : p.reset = .ok (q, cs) → (∀ c, q.has c → p.has c) ∧ ∀ x ∈ cs, p.has x.consumer :=
    fun h => ⟨fun c hc => ((reset_has h).1 c hc).elim, (reset_has h).2⟩
  unfold StreamParser.addMessage at h
  split at h
  · cases h; exact ⟨fun c hc => hc, none⟩
  · cases h; exact ⟨fun c hc => hc, none⟩
  · unfold StreamParser.addFirst at h
    split at h
    · obtain ⟨crc, -, h⟩ := bind_ok h
      dsimp only at h
      split at h
      · cases h; exact ⟨fun c hc => hc, none⟩
      · cases h; exact ⟨fun c hc => hc, fun x hx => Or.inl (notify_has _ _ x hx)⟩
    · split at h
      · exact viaReset h
      · split at h
        · exact viaReset h
        · cases h; exact ⟨fun c hc => hc, none⟩
  · unfold StreamParser.addData at h
    split at h
    · exact viaReset h
    · obtain ⟨crc, -, h⟩ := bind_ok h
      obtain ⟨⟨t, evs⟩, h1, h⟩ := bind_ok h
      have hc := addText_calls h1
      have hev : ∀ x ∈ evs.map StreamParser.ofParseEvent, p.has x.consumer := by
        intro x hx
        obtain ⟨e, he, rfl⟩ := List.mem_map.mp hx
        exact Or.inr (hc.2 e he)
      have hq : ∀ c, p.consumer = some c ∨ t.consumer = some c → p.has c := by
        rintro c (h | h)
        · exact Or.inl h
        · rw [hc.1] at h; exact Or.inr h
      dsimp only at h
      split at h
      · split at h
        · cases h
          refine ⟨hq, fun x hx => (List.mem_append.mp hx).elim (hev x) fun hx => Or.inl (notify_has _ _ x hx)⟩
        · cases h
          refine ⟨hq, fun x hx => (List.mem_append.mp hx).elim (hev x) fun hx => Or.inl (notify_has _ _ x hx)⟩
      · cases h; exact ⟨hq, hev⟩

namespace World

/-- What the library does by itself sets no pointers between parsers, consumers, callbacks and engines. -/
def Fewer (w w' : World) : Prop := ∀ o o', Points w' o o' → Points w o o'

theorem points_congr {w w' : World} (h1 : ∀ n c, (w'.parsers n).has c → (w.parsers n).has c) (h2 : w'.consumers = w.consumers) : Fewer w w' := by
  intro o o' h
  cases h with
  | consumer n c h => exact .consumer n c (h1 n c h)
  | engine c e l h he => exact .engine c e l (by rw [← h2]; exact h) he
  | locoEnd c n l h he => exact .locoEnd c n l (by rw [← h2]; exact h) he
  | listEnd c n l h he => exact .listEnd c n l (by rw [← h2]; exact h) he

theorem fewer_setParser (w : World) (n : Nat) (p : StreamParser) (h : ∀ c, p.has c → (w.parsers n).has c) : Fewer w (w.setParser n p) := by
  refine points_congr ?_ rfl
  intro m c hm
  simp only [setParser] at hm
  split at hm
  · rename_i h'; subst h'; exact h c hm
  · exact hm

theorem fewer_list {w w' : World} {c : Nat} {l l' : LocoListConsumer} (hl : w.consumers c = .list l) (he : l'.streamEndCallback = l.streamEndCallback)
    (h1 : w'.parsers = w.parsers) (h2 : w'.consumers = fun m => if m = c then .list l' else w.consumers m) : Fewer w w' := by
  intro o o' h
  cases h with
  | consumer n c h => exact .consumer n c (by rw [← h1]; exact h)
  | engine d e k h hk =>
    rw [h2] at h
    simp only at h
    split at h
    · cases h
    · exact .engine d e k h hk
  | locoEnd d n k h hk =>
    rw [h2] at h
    simp only at h
    split at h
    · cases h
    · exact .locoEnd d n k h hk
  | listEnd d n k h hk =>
    rw [h2] at h
    simp only at h
    split at h
    · rename_i hd
      cases h
      subst hd
      exact .listEnd d n l hl (by rw [← he]; exact hk)
    · exact .listEnd d n k h hk

theorem list_consume_end {pf : Platform} {l d : LocoListConsumer} {s k v : BufferManager} (h : l.consumeConfigData pf s k v = .ok d) :
    d.streamEndCallback = l.streamEndCallback := by
  unfold LocoListConsumer.consumeConfigData at h
  obtain ⟨b, -, h⟩ := bind_ok h
  split at h
  · split at h
    · cases h; rfl
    · obtain ⟨_, -, h⟩ := bind_ok h
      obtain ⟨_, -, h⟩ := bind_ok h
      cases h; rfl
  · obtain ⟨b, -, h⟩ := bind_ok h
    split at h
    · obtain ⟨b, -, h⟩ := bind_ok h
      split at h
      · obtain ⟨_, -, h⟩ := bind_ok h
        cases h; rfl
      · cases h; rfl
    · obtain ⟨_, -, h⟩ := bind_ok h
      cases h; rfl

theorem callConsumer_fewer {w w' : World} {c : ConsumerCall} (h : w.callConsumer c = .ok w') : Fewer w w' := by
  rcases callConsumer_cases h with ⟨l, s, k, v, es, h1, h2, h3, rfl⟩ | ⟨l, es, ends, h1, h2, h3, rfl⟩ | ⟨l, ends, h1, h2, h3, rfl⟩ |
    ⟨l, s, k, v, l', h1, h2, h3, rfl⟩ | ⟨l, l', ends, h1, h2, h3, rfl⟩ | ⟨l, l', ends, h1, h2, h3, rfl⟩ | ⟨h1, rfl⟩
  · exact points_congr (fun _ _ h => h) rfl
  · exact points_congr (fun _ _ h => h) rfl
  · exact points_congr (fun _ _ h => h) rfl
  · exact fewer_list h1 (list_consume_end h3) rfl rfl
  · obtain ⟨cb, -, h3⟩ := bind_ok h3
    cases h3
    exact fewer_list (l' := { l with streamComplete := some true }) h1 rfl rfl rfl
  · obtain ⟨cb, -, h3⟩ := bind_ok h3
    cases h3
    exact fewer_list (l' := l.reset) h1 rfl rfl rfl
  · exact points_congr (fun _ _ h => h) rfl

/-! ## Agreement with the program without destroyed objects -/

/-- A set of objects that contains what its members point to. -/
def Closed (C : Obj → Prop) (w : World) : Prop := ∀ o o', C o → Points w o o' → C o'

theorem Closed.fewer {C : Obj → Prop} {w w' : World} (h : Closed C w) (hf : Fewer w w') : Closed C w' := fun o o' ho hp => h o o' ho (hf o o' hp)

theorem check_ok {live : Obj → Bool} {os : List Obj} (h : ∀ o ∈ os, live o = true) : Out.check live os = .ok () := by
  induction os with
  | nil => rfl
  | cons o os ih =>
    unfold Out.check
    rw [if_pos (h o (List.mem_cons_self ..)), ih fun x hx => h x (List.mem_cons_of_mem _ hx)]

theorem check_error {live : Obj → Bool} {os : List Obj} {o : Obj} (h : o ∈ os) (hd : live o = false) : ∃ o' ∈ os, live o' = false ∧ Out.check live os = .error (.dangling o') := by
  induction os with
  | nil => cases h
  | cons a os ih =>
    unfold Out.check
    cases ha : live a with
    | false => exact ⟨a, List.mem_cons_self .., ha, by simp⟩
    | true =>
      rcases List.mem_cons.mp h with rfl | h
      · rw [ha] at hd; cases hd
      · obtain ⟨o', h1, h2, h3⟩ := ih h
        exact ⟨o', List.mem_cons_of_mem _ h1, h2, by simpa using h3⟩

theorem outlift_bind {α β : Type} (r : Res α) (f : α → Res β) : Out.lift (r >>= f) = Out.lift r >>= fun a => Out.lift (f a) := by
  cases r <;> rfl

/-- Two loops agree if their bodies do, in all states with an invariant. -/
theorem foldlM_agree {β : Type} (f : World → β → Res World) (g : World → β → Out World) (I : World → Prop) (cs : List β)
    (hg : ∀ w, I w → ∀ c ∈ cs, g w c = Out.lift (f w c)) (hI : ∀ w w', I w → ∀ c ∈ cs, f w c = .ok w' → I w') :
    ∀ w, I w → cs.foldlM g w = Out.lift (cs.foldlM f w) := by
  induction cs with
  | nil => intro w _; rfl
  | cons c cs ih =>
    intro w hw
    rw [List.foldlM_cons, List.foldlM_cons, hg w hw c (List.mem_cons_self ..), outlift_bind]
    cases h : f w c with
    | error e => rfl
    | ok w' =>
      exact ih (fun w hw c hc => hg w hw c (List.mem_cons_of_mem _ hc)) (fun w w' hw c hc => hI w w' hw c (List.mem_cons_of_mem _ hc)) w'
        (hI w w' hw c (List.mem_cons_self ..) h)

theorem obj?_mem {p : Ptr} {f : Nat → Obj} {o : Obj} (h : o ∈ p.obj?.toList.map f) : ∃ n, p = .obj n ∧ o = f n := by
  cases p with
  | uninit => cases h
  | null => cases h
  | obj n => exact ⟨n, rfl, by simpa [Ptr.obj?] using h⟩

/-- A call on a consumer uses the consumer and objects it points to. -/
theorem consumerUses_points (w : World) (c : ConsumerCall) (o : Obj) (h : o ∈ w.consumerUses c) :
    o = .consumer c.consumer ∨ Points w (.consumer c.consumer) o := by
  unfold consumerUses at h
  rcases List.mem_cons.mp h with rfl | h
  · exact Or.inl rfl
  · right
    split at h
    · rename_i l _ _ _ hl _
      obtain ⟨n, h1, rfl⟩ := obj?_mem h
      exact .engine _ n l hl h1
    · rename_i l hl _
      split at h
      · rename_i e he
        rcases List.mem_cons.mp h with rfl | h
        · refine .engine _ e l hl ?_
          cases hp : l.currentEngine with
          | uninit => rw [hp] at he; cases he
          | null => rw [hp] at he; cases he
          | obj n => rw [hp] at he; cases he; rfl
        · obtain ⟨n, h1, rfl⟩ := obj?_mem h
          exact .locoEnd _ n l hl h1
      · cases h
    · rename_i l hl _
      obtain ⟨n, h1, rfl⟩ := obj?_mem h
      exact .locoEnd _ n l hl h1
    · cases h
    · rename_i l hl _
      obtain ⟨n, h1, rfl⟩ := obj?_mem h
      exact .listEnd _ n l hl h1
    · rename_i l hl _
      obtain ⟨n, h1, rfl⟩ := obj?_mem h
      exact .listEnd _ n l hl h1
    · cases h

section
variable {live : Obj → Bool} {C : Obj → Prop} (hl : ∀ o, C o → live o = true)
include hl

theorem callConsumer_agree {w : World} (hC : Closed C w) {c : ConsumerCall} (hc : C (.consumer c.consumer)) :
    w.callConsumerL live c = Out.lift (w.callConsumer c) := by
  unfold callConsumerL
  rw [check_ok]
  · rfl
  · intro o ho
    rcases consumerUses_points w c o ho with rfl | h
    · exact hl _ hc
    · exact hl _ (hC _ _ hc h)

theorem callConsumers_agree {w : World} (hC : Closed C w) {cs : List ConsumerCall} (hc : ∀ c ∈ cs, C (.consumer c.consumer)) :
    w.callConsumersL live cs = Out.lift (w.callConsumers cs) :=
  foldlM_agree callConsumer (callConsumerL live) (Closed C) cs (fun _ hw c h => callConsumer_agree hl hw (hc c h))
    (fun _ _ hw _ _ h => hw.fewer (callConsumer_fewer h)) w hC

theorem parserAdd_agree {w : World} (hC : Closed C w) {n : Nat} (hn : C (.parser n)) (d : Data) :
    w.parserAddL live n d = Out.lift (w.parserAdd n d) := by
  unfold parserAddL parserAdd
  rw [check_ok (by intro o ho; rw [List.mem_singleton] at ho; rw [ho]; exact hl _ hn), outlift_bind]
  cases h : (w.parsers n).addMessage d with
  | error e => rfl
  | ok r =>
    obtain ⟨p, cs⟩ := r
    obtain ⟨h1, h2⟩ := addMessage_has h
    exact callConsumers_agree hl (hC.fewer (fewer_setParser w n p h1)) fun c hc => hC _ _ hn (.consumer n _ (h2 c hc))

theorem parserReset_agree {w : World} (hC : Closed C w) {n : Nat} (hn : C (.parser n)) :
    w.parserResetL live n = Out.lift (w.parserReset n) := by
  unfold parserResetL parserReset
  rw [check_ok (by intro o ho; rw [List.mem_singleton] at ho; rw [ho]; exact hl _ hn), outlift_bind]
  cases h : (w.parsers n).reset with
  | error e => rfl
  | ok r =>
    obtain ⟨p, cs⟩ := r
    obtain ⟨h1, h2⟩ := reset_has h
    exact callConsumers_agree hl (hC.fewer (fewer_setParser w n p fun c hc => (h1 c hc).elim)) fun c hc => hC _ _ hn (.consumer n _ (h2 c hc))

omit hl in
theorem for_target (c : Call) : For c c.target := by
  cases c <;> constructor

theorem runCall_agree {w : World} (hC : Closed C w) {c : Call} (hc : C c.target) : w.runCallL live c = Out.lift (w.runCall c) := by
  have h1 : Out.check live [c.target] = .ok () := check_ok (by intro o ho; rw [List.mem_singleton] at ho; rw [ho]; exact hl _ hc)
  cases c with
  | cfgAdd n d => exact parserAdd_agree hl hC hc d
  | cfgReset n => exact parserReset_agree hl hC hc
  | _ => simp only [runCallL, h1]; rfl

end

theorem callConsumers_fewer {w w' : World} {cs : List ConsumerCall} (h : w.callConsumers cs = .ok w') : Fewer w w' :=
  foldlM_inv World.callConsumer (Fewer w) (fun _ _ _ hb hs => fun o o' hp => hb o o' (callConsumer_fewer hs o o' hp)) cs w w' (fun _ _ h => h) h

theorem parserAdd_fewer {w w' : World} {n : Nat} {d : Data} (h : w.parserAdd n d = .ok w') : Fewer w w' := by
  obtain ⟨⟨p, cs⟩, h1, h2⟩ := bind_ok h
  exact fun o o' hp => fewer_setParser w n p (addMessage_has h1).1 o o' (callConsumers_fewer h2 o o' hp)

theorem parserReset_fewer {w w' : World} {n : Nat} (h : w.parserReset n = .ok w') : Fewer w w' := by
  obtain ⟨⟨p, cs⟩, h1, h2⟩ := bind_ok h
  exact fun o o' hp => fewer_setParser w n p (fun c hc => ((reset_has h1).1 c hc).elim) o o' (callConsumers_fewer h2 o o' hp)

theorem runCall_fewer {w w' : World} {c : Call} (h : w.runCall c = .ok w') : Fewer w w' := by
  unfold World.runCall at h
  split at h
  · cases h; exact fewer_setParser _ _ _ fun _ h => h
  · exact parserAdd_fewer h
  · exact parserReset_fewer h
  · cases h; exact points_congr (fun _ _ h => h) rfl

theorem runCalls_fewer {w w' : World} {cs : List Call} (h : w.runCalls cs = .ok w') : Fewer w w' :=
  foldlM_inv World.runCall (Fewer w) (fun _ _ _ hb hs => fun o o' hp => hb o o' (runCall_fewer hs o o' hp)) cs w w' (fun _ _ h => h) h

theorem runCalls_agree {live : Obj → Bool} {C : Obj → Prop} (hl : ∀ o, C o → live o = true) {w : World} (hC : Closed C w) {cs : List Call}
    (hc : ∀ c ∈ cs, C c.target) : w.runCallsL live cs = Out.lift (w.runCalls cs) :=
  foldlM_agree runCall (runCallL live) (Closed C) cs (fun _ hw c h => runCall_agree hl hw (hc c h))
    (fun _ _ hw _ _ h => hw.fewer (runCall_fewer h)) w hC

theorem check_inv {live : Obj → Bool} {os : List Obj} {u : Unit} (h : Out.check live os = .ok u) : ∀ o ∈ os, live o = true := by
  intro o ho
  cases hd : live o with
  | true => rfl
  | false =>
    obtain ⟨o', -, -, h2⟩ := check_error ho hd
    rw [h2] at h; cases h

/-! ## The functions of the station -/

end World

/-- A function that calls only objects the station points to. -/
def Aims (s : Station) (r : Res (List Call)) : Prop := ∀ cs, r = .ok cs → ∀ c ∈ cs, s.Has c.target

theorem aims_nil (s : Station) : Aims s (.ok []) := by
  intro cs h c hc; cases h; cases hc

theorem aims_error (s : Station) (e : Fault) : Aims s (.error e) := by
  intro cs h; cases h

theorem aims_one {s : Station} {c : Call} (h : s.Has c.target) : Aims s (.ok [c]) := by
  intro cs h' x hx; cases h'; rw [List.mem_singleton] at hx; rw [hx]; exact h

theorem aims_printed (s : Station) (d : Data) : Aims s (do let _ ← d.printed; .ok []) := by
  intro cs h
  obtain ⟨_, -, h⟩ := bind_ok h
  exact aims_nil s cs h

theorem aims_txSend (s : Station) (f : CanFrame) : Aims s (s.txSend f) := by
  unfold Station.txSend
  split
  · exact aims_error _ _
  · rename_i cb h; exact aims_one (.tx cb h)

theorem aims_allFunctions (s : Station) (n : Nat) : ∀ (f : CanFrame) (i : Byte), Aims s (s.allFunctionsLoop f n i) := by
  induction n with
  | zero => intro f i; exact aims_nil s
  | succ n ih =>
    intro f i cs h
    obtain ⟨t, h1, h⟩ := bind_ok h
    obtain ⟨ts, h2, h⟩ := bind_ok h
    cases h
    intro c hc
    rcases List.mem_append.mp hc with hc | hc
    · exact aims_txSend s _ _ h1 c hc
    · exact ih _ _ _ h2 c hc

theorem aims_handle (s : Station) (b : Bool) (f : CanFrame) : Aims s (s.HandlePacket b f) := by
  unfold Station.HandlePacket
  dsimp only
  split
  · unfold Station.HandleSystemCommand
    dsimp only
    repeat' split
    all_goals first
      | exact aims_nil s
      | (rename_i h; exact aims_one (.system _ h))
      | (rename_i h; exact aims_one (.engineCbk _ h))
  · split
    · exact aims_nil s
    · split
      · unfold Station.HandleAccessoryPacket
        split
        · exact aims_nil s
        · rename_i h; exact aims_one (.accessory _ h)
      · split
        · unfold Station.HandleLocoDirection
          dsimp only
          repeat' split
          all_goals first
            | exact aims_nil s
            | exact aims_error s _
            | (rename_i h; exact aims_one (.engineCbk _ h))
        · split
          · unfold Station.HandleLocoSpeed
            dsimp only
            repeat' split
            all_goals first
              | exact aims_nil s
              | (rename_i h; exact aims_one (.engineCbk _ h))
          · split
            · unfold Station.HandleLocoFunction
              repeat' split
              all_goals first
                | exact aims_nil s
                | exact aims_error s _
                | (rename_i h; exact aims_one (.engineCbk _ h))
            · split
              · exact aims_nil s
              · split
                · unfold Station.HandleConfigDataStream
                  split
                  · exact aims_printed s _
                  · rename_i h
                    split
                    · exact aims_one (.parser _ h)
                    · exact aims_printed s _
                · split
                  · exact aims_printed s _
                  · exact aims_printed s _

/-- What the end of a request leaves: the same callbacks, but no parser, which is reset. -/
theorem finish_parts (s : Station) : (∀ c ∈ s.FinishCurrentConfigRequest.2, s.Has c.target) ∧
    s.FinishCurrentConfigRequest.1 = { s with callbacks := { s.callbacks with configData := none } } := by
  unfold Station.FinishCurrentConfigRequest
  split
  · rename_i h
    refine ⟨(by intro c hc; cases hc), ?_⟩
    rw [← h]
  · rename_i cb h
    refine ⟨?_, rfl⟩
    intro c hc
    rw [List.mem_singleton] at hc
    rw [hc]
    exact .parser cb h

/-- What a request does: calls on the callbacks of the station and on the new parser. -/
structure Serves (s : Station) (p : Option Nat) (s' : Station) (calls : List Call) : Prop where
  calls : ∀ c ∈ calls, s.Has c.target ∨ ∃ n, p = some n ∧ c.target = .parser n
  station : s' = s ∨ s' = { s with callbacks := { s.callbacks with configData := p } }

theorem has_tx {s : Station} {p : Option Nat} {f : CanFrame} {t : List Call}
    (h : ({ s with callbacks := { s.callbacks with configData := p } } : Station).txSend f = .ok t) : ∀ c ∈ t, s.Has c.target := by
  intro c hc
  unfold Station.txSend at h
  split at h
  · cases h
  · rename_i cb htx
    cases h
    rw [List.mem_singleton] at hc
    rw [hc]
    exact .tx cb htx

theorem serves_start {p : Option Nat} : ∀ c ∈ (match p with | none => [] | some cb => [Call.cfgStart cb] : List Call), ∃ n, p = some n ∧ c.target = .parser n := by
  intro c hc
  cases p with
  | none => cases hc
  | some n =>
    rw [List.mem_singleton] at hc
    exact ⟨n, rfl, by rw [hc]; rfl⟩

theorem serves_list {s s' : Station} {off : Byte} {p : Option Nat} {calls : List Call} (h : s.RequestEngineList off p = .ok (s', calls)) :
    Serves s p s' calls := by
  unfold Station.RequestEngineList at h
  obtain ⟨h1, h2⟩ := finish_parts s
  rw [show s.AbortCurrentConfigRequest = s.FinishCurrentConfigRequest from rfl] at h
  generalize s.FinishCurrentConfigRequest = r at h h1 h2
  obtain ⟨s1, c1⟩ := r
  subst h2
  dsimp only at h
  obtain ⟨m1, -, h⟩ := bind_ok h
  obtain ⟨⟨m2, n⟩, -, h⟩ := bind_ok h
  dsimp only at h
  split at h
  · obtain ⟨t1, g1, h⟩ := bind_ok h
    obtain ⟨t2, g2, h⟩ := bind_ok h
    cases h
    refine ⟨?_, Or.inr rfl⟩
    intro c hc
    rw [List.mem_append, List.mem_append, List.mem_append] at hc
    rcases hc with ((hc | hc) | hc) | hc
    · exact Or.inl (h1 c hc)
    · exact Or.inr (serves_start c hc)
    · exact Or.inl (has_tx g1 c hc)
    · exact Or.inl (has_tx g2 c hc)
  · cases h
    exact ⟨fun c hc => Or.inl (h1 c hc), Or.inr rfl⟩

theorem serves_engine {s s' : Station} {b : Bool} {i : ShortInfo} {p : Option Nat} {calls : List Call}
    (h : s.RequestEngine b i p = .ok (s', calls)) : Serves s p s' calls := by
  unfold Station.RequestEngine at h
  split at h
  · cases h; exact ⟨(by intro c hc; cases hc), Or.inl rfl⟩
  · split at h
    · cases h; exact ⟨(by intro c hc; cases hc), Or.inl rfl⟩
    · obtain ⟨h1, h2⟩ := finish_parts s
      rw [show s.AbortCurrentConfigRequest = s.FinishCurrentConfigRequest from rfl] at h
      generalize s.FinishCurrentConfigRequest = r at h h1 h2
      obtain ⟨s1, c1⟩ := r
      subst h2
      dsimp only at h
      obtain ⟨m1, -, h⟩ := bind_ok h
      obtain ⟨t1, g1, h⟩ := bind_ok h
      obtain ⟨len, -, h⟩ := bind_ok h
      obtain ⟨m2, -, h⟩ := bind_ok h
      obtain ⟨t2, g2, h⟩ := bind_ok h
      obtain ⟨d, -, h⟩ := bind_ok h
      obtain ⟨t3, g3, h⟩ := bind_ok h
      cases h
      refine ⟨?_, Or.inr rfl⟩
      intro c hc
      rw [List.mem_append, List.mem_append, List.mem_append, List.mem_append] at hc
      rcases hc with (((hc | hc) | hc) | hc) | hc
      · exact Or.inl (h1 c hc)
      · exact Or.inr (serves_start c hc)
      · exact Or.inl (has_tx g1 c hc)
      · exact Or.inl (has_tx g2 c hc)
      · exact Or.inl (has_tx g3 c hc)

namespace World

/-- The calls and the pointers of a station after one of its functions: those it had, and those the application mentions. -/
theorem stationDoes_has {w : World} {op : Op} {s : Station} {calls : List Call} (h : w.stationDoes op = some (.ok (s, calls))) :
    (∀ c ∈ calls, w.station.Has c.target ∨ Mentions op c.target) ∧ ∀ o, s.Has o → w.station.Has o ∨ Mentions op o := by
  have keep : ∀ {r : Res (List Call)}, Aims w.station r → some (r.map (w.station, ·)) = some (.ok (s, calls)) →
      (∀ c ∈ calls, w.station.Has c.target ∨ Mentions op c.target) ∧ ∀ o, s.Has o → w.station.Has o ∨ Mentions op o := by
    intro r hr he
    cases r with
    | error e => cases he
    | ok cs =>
      cases he
      exact ⟨fun c hc => Or.inl (hr _ rfl c hc), fun o ho => Or.inl ho⟩
  have fin : some (Except.ok w.station.FinishCurrentConfigRequest : Res (Station × List Call)) = some (.ok (s, calls)) →
      (∀ c ∈ calls, w.station.Has c.target ∨ Mentions op c.target) ∧ ∀ o, s.Has o → w.station.Has o ∨ Mentions op o := by
    intro he
    obtain ⟨h1, h2⟩ := finish_parts w.station
    injection he with he
    injection he with he
    rw [he] at h1 h2
    refine ⟨fun c hc => Or.inl (h1 c hc), ?_⟩
    intro o ho
    simp only at h2
    subst h2
    left
    cases ho with
    | tx n h => exact .tx n h
    | system n h => exact .system n h
    | engineCbk n h => exact .engineCbk n h
    | accessory n h => exact .accessory n h
    | parser n h => cases h
  have serve : ∀ {p : Option Nat}, Serves w.station p s calls → (∀ n, p = some n → Mentions op (.parser n)) →
      (∀ c ∈ calls, w.station.Has c.target ∨ Mentions op c.target) ∧ ∀ o, s.Has o → w.station.Has o ∨ Mentions op o := by
    intro p hp hm
    refine ⟨fun c hc => (hp.calls c hc).imp id fun ⟨n, h1, h2⟩ => by rw [h2]; exact hm n h1, ?_⟩
    intro o ho
    rcases hp.station with rfl | rfl
    · exact Or.inl ho
    · cases ho with
      | tx n h => exact Or.inl (.tx n h)
      | system n h => exact Or.inl (.system n h)
      | engineCbk n h => exact Or.inl (.engineCbk n h)
      | accessory n h => exact Or.inl (.accessory n h)
      | parser n h => exact Or.inr (hm n h)
  cases op with
  | begin_ u cbs =>
    unfold stationDoes at h
    simp only [Station.begin_, Station.AbortCurrentConfigRequest, Option.some.injEq, Except.ok.injEq, Prod.mk.injEq] at h
    obtain ⟨rfl, rfl⟩ := h
    refine ⟨fun c hc => Or.inl ((finish_parts w.station).1 c hc), ?_⟩
    intro o ho
    right
    cases ho with
    | tx n h => exact .beginTx u cbs n h
    | system n h => exact .beginSystem u cbs n h
    | engineCbk n h => exact .beginEngine u cbs n h
    | accessory n h => exact .beginAccessory u cbs n h
    | parser n h => exact .beginParser u cbs n h
  | handle f => exact keep (aims_handle _ _ _) h
  | finish => exact fin h
  | abort => exact fin h
  | notifyReceived => exact fin h
  | requestEngine e p => exact serve (serves_engine (Option.some.inj h)) (by rintro n rfl; exact .requestParser e n)
  | requestShortInfo i p => exact serve (serves_engine (Option.some.inj h)) (by rintro n rfl; exact .shortParser i n)
  | requestEngineList off p => exact serve (serves_list (Option.some.inj h)) (by rintro n rfl; exact .listParser off n)
  | requestDirection e => exact keep (aims_txSend _ _) h
  | sendDirection e d =>
    refine keep ?_ h
    unfold Station.SendEngineDirection
    split
    · exact aims_txSend _ _
    · exact aims_nil _
  | requestVelocity e => exact keep (aims_txSend _ _) h
  | sendVelocity e v => exact keep (aims_txSend _ _) h
  | requestFunction e f => exact keep (aims_txSend _ _) h
  | requestAllFunctions e => exact keep (aims_allFunctions _ _ _ _) h
  | sendFunction e f v => exact keep (aims_txSend _ _) h
  | sendEmergencyStop e => exact keep (aims_txSend _ _) h
  | sendStop => exact keep (aims_txSend _ _) h
  | sendGo => exact keep (aims_txSend _ _) h
  | sendAccessory a p d pw => exact keep (aims_txSend _ _) h
  | sendPacket f => exact keep (aims_txSend _ _) h
  | _ => cases h

/-- `World.step` in terms of `stationDoes`. -/
theorem step_station {w : World} {op : Op} {r : Res (Station × List Call)} (h : w.stationDoes op = some r) : w.step op = w.stationUpdate r := by
  have keep : ∀ {r' : Res (List Call)}, some (r'.map (w.station, ·)) = some r → w.stationCalls r' = w.stationUpdate r := by
    intro r' he
    cases he
    cases r' <;> rfl
  cases op with
  | begin_ _ _ => cases h; rfl
  | handle _ => exact keep h
  | finish => cases h; rfl
  | abort => cases h; rfl
  | notifyReceived => cases h; rfl
  | requestEngine _ _ => cases h; rfl
  | requestShortInfo _ _ => cases h; rfl
  | requestEngineList _ _ => cases h; rfl
  | requestDirection _ => exact keep h
  | sendDirection _ _ => exact keep h
  | requestVelocity _ => exact keep h
  | sendVelocity _ _ => exact keep h
  | requestFunction _ _ => exact keep h
  | requestAllFunctions _ => exact keep h
  | sendFunction _ _ _ => exact keep h
  | sendEmergencyStop _ => exact keep h
  | sendStop => exact keep h
  | sendGo => exact keep h
  | sendAccessory _ _ _ _ => exact keep h
  | sendPacket _ => exact keep h
  | _ => cases h

/-- A function uses only objects the application mentions or the station points to. -/
theorem opUses_has {w : World} {op : Op} {o : Obj} (h : o ∈ w.opUses op) : w.station.Has o ∨ Mentions op o := by
  have asks : o ∈ w.asksParser → w.station.Has o := by
    intro h
    unfold asksParser at h
    cases hc : w.station.callbacks.configData with
    | none => rw [hc] at h; cases h
    | some n =>
      rw [hc] at h
      simp at h
      rw [h]
      exact .parser n hc
  cases op with
  | handle f =>
    simp only [opUses] at h
    split at h
    · exact Or.inl (asks h)
    · cases h
  | requestEngine e p =>
    simp only [opUses] at h
    rcases List.mem_cons.mp h with rfl | h
    · exact Or.inr (.requestEngine e p)
    · split at h
      · exact Or.inl (asks h)
      · cases h
  | requestShortInfo i p =>
    simp only [opUses] at h
    split at h
    · exact Or.inl (asks h)
    · cases h
  | parserStart n c => rw [List.mem_singleton.mp h]; exact Or.inr (.parserStart n c)
  | parserStartStream n => rw [List.mem_singleton.mp h]; exact Or.inr (.parserStartStream n)
  | parserAdd n d => rw [List.mem_singleton.mp h]; exact Or.inr (.parserAdd n d)
  | parserReset n => rw [List.mem_singleton.mp h]; exact Or.inr (.parserReset n)
  | setEngine c e => rw [List.mem_singleton.mp h]; exact Or.inr (.setEngine c e)
  | setEndCallback c e => rw [List.mem_singleton.mp h]; exact Or.inr (.setEnd c e)
  | setStreamOffset c e => rw [List.mem_singleton.mp h]; exact Or.inr (.setOffset c e)
  | clearTable c => rw [List.mem_singleton.mp h]; exact Or.inr (.clearTable c)
  | resetList c => rw [List.mem_singleton.mp h]; exact Or.inr (.resetList c)
  | setName e _ => rw [List.mem_singleton.mp h]; exact Or.inr (.setName e _)
  | assignEngine e _ => rw [List.mem_singleton.mp h]; exact Or.inr (.assignEngine e _)
  | _ => cases h

/-- The program with destroyed objects does the same as the one without, as long as everything the call can reach exists. -/
theorem step_agree {live : Obj → Bool} {C : Obj → Prop} (hl : ∀ o, C o → live o = true) {w : World} (hC : Closed C w) {op : Op}
    (hs : ∀ o, w.station.Has o → C o) (hm : ∀ o, Mentions op o → C o) : w.stepL live op = Out.lift (w.step op) := by
  unfold stepL
  rw [check_ok fun o ho => hl o ((opUses_has ho).elim (hs o) (hm o))]
  cases h : w.stationDoes op with
  | some r =>
    rw [step_station h]
    cases r with
    | error e => rfl
    | ok r =>
      obtain ⟨s, calls⟩ := r
      refine runCalls_agree (w := { w with station := s }) hl (hC.fewer (points_congr (fun _ _ h => h) rfl)) ?_
      intro c hc
      exact ((stationDoes_has h).1 c hc).elim (hs _) (hm _)
  | none =>
    cases op with
    | parserAdd n d => exact parserAdd_agree hl hC (hm _ (.parserAdd n d)) d
    | parserReset n => exact parserReset_agree hl hC (hm _ (.parserReset n))
    | _ => first | rfl | cases h

/-- The pointers after a call: those before it, and pointers between objects the application mentions. -/
theorem step_points {w w' : World} {op : Op} (h : w.step op = .ok w') :
    (∀ o, w'.station.Has o → w.station.Has o ∨ Mentions op o) ∧
    ∀ o o', Points w' o o' → Points w o o' ∨ (Mentions op o ∧ Mentions op o') := by
  cases hp : w.stationDoes op with
  | some r =>
    rw [step_station hp] at h
    obtain ⟨⟨s, calls⟩, rfl, h⟩ := bind_ok h
    refine ⟨?_, fun o o' ho => Or.inl ?_⟩
    · rw [(runCalls_log _ _ _ h).1]
      exact (stationDoes_has hp).2
    · exact points_congr (w := w) (w' := { w with station := s }) (fun _ _ h => h) rfl o o' (runCalls_fewer h o o' ho)
  | none =>
    cases op with
    | parserStart n c =>
      cases h
      refine ⟨fun o ho => Or.inl ho, ?_⟩
      intro o o' ho
      cases ho with
      | consumer m d hd =>
        simp only [setParser] at hd
        split at hd
        · rename_i hm
          subst hm
          have : c = some d := by
            rcases hd with hd | hd
            · exact hd
            · exact hd
          subst this
          exact Or.inr ⟨.parserStart m _, .parserConsumer m d⟩
        · exact Or.inl (.consumer m d hd)
      | engine c e l h he => exact Or.inl (.engine c e l h he)
      | locoEnd c n l h he => exact Or.inl (.locoEnd c n l h he)
      | listEnd c n l h he => exact Or.inl (.listEnd c n l h he)
    | parserStartStream n =>
      cases h
      exact ⟨fun o ho => Or.inl ho, fun o o' ho => Or.inl (fewer_setParser w n (w.parsers n).startStream (fun _ h => h) o o' ho)⟩
    | parserAdd n d => exact ⟨fun o ho => Or.inl (by rw [← (parserAdd_quiet _ _ _ _ h).1]; exact ho), fun o o' ho => Or.inl (parserAdd_fewer h o o' ho)⟩
    | parserReset n => exact ⟨fun o ho => Or.inl (by rw [← (parserReset_quiet _ _ _ h).1]; exact ho), fun o o' ho => Or.inl (parserReset_fewer h o o' ho)⟩
    | setEngine c e =>
      simp only [step] at h
      split at h
      · rename_i l hl
        cases h
        refine ⟨fun o ho => Or.inl ho, ?_⟩
        intro o o' ho
        cases ho with
        | consumer m d hd => exact Or.inl (.consumer m d hd)
        | engine d x k h hk =>
          simp only [setConsumer] at h
          split at h
          · rename_i hd
            cases h
            subst hd
            cases e with
            | none => cases hk
            | some e => cases hk; exact Or.inr ⟨.setEngine _ _, .setEngineTo _ _⟩
          · exact Or.inl (.engine d x k h hk)
        | locoEnd d n k h hk =>
          simp only [setConsumer] at h
          split at h
          · rename_i hd
            cases h
            subst hd
            exact Or.inl (.locoEnd d n l hl hk)
          · exact Or.inl (.locoEnd d n k h hk)
        | listEnd d n k h hk =>
          simp only [setConsumer] at h
          split at h
          · cases h
          · exact Or.inl (.listEnd d n k h hk)
      · cases h; exact ⟨fun o ho => Or.inl ho, fun o o' ho => Or.inl ho⟩
    | setEndCallback c e =>
      simp only [step] at h
      split at h
      · rename_i l hl
        cases h
        refine ⟨fun o ho => Or.inl ho, ?_⟩
        intro o o' ho
        cases ho with
        | consumer m d hd => exact Or.inl (.consumer m d hd)
        | engine d x k h hk =>
          simp only [setConsumer] at h
          split at h
          · rename_i hd
            cases h
            subst hd
            exact Or.inl (.engine d x l hl hk)
          · exact Or.inl (.engine d x k h hk)
        | locoEnd d n k h hk =>
          simp only [setConsumer] at h
          split at h
          · rename_i hd
            cases h
            subst hd
            cases e with
            | none => cases hk
            | some e => cases hk; exact Or.inr ⟨.setEnd _ _, .setEndTo _ _⟩
          · exact Or.inl (.locoEnd d n k h hk)
        | listEnd d n k h hk =>
          simp only [setConsumer] at h
          split at h
          · cases h
          · exact Or.inl (.listEnd d n k h hk)
      · rename_i l hl
        cases h
        refine ⟨fun o ho => Or.inl ho, ?_⟩
        intro o o' ho
        cases ho with
        | consumer m d hd => exact Or.inl (.consumer m d hd)
        | engine d x k h hk =>
          simp only [setConsumer] at h
          split at h
          · cases h
          · exact Or.inl (.engine d x k h hk)
        | locoEnd d n k h hk =>
          simp only [setConsumer] at h
          split at h
          · cases h
          · exact Or.inl (.locoEnd d n k h hk)
        | listEnd d n k h hk =>
          simp only [setConsumer] at h
          split at h
          · rename_i hd
            cases h
            subst hd
            cases e with
            | none => cases hk
            | some e => cases hk; exact Or.inr ⟨.setEnd _ _, .setEndTo _ _⟩
          · exact Or.inl (.listEnd d n k h hk)
      · cases h; exact ⟨fun o ho => Or.inl ho, fun o o' ho => Or.inl ho⟩
    | setStreamOffset c off =>
      simp only [step] at h
      split at h
      · rename_i l hl
        cases h
        exact ⟨fun o ho => Or.inl ho, fun o o' ho => Or.inl (fewer_list (w' := w.setConsumer c (.list (l.setStreamOffset off))) (l' := l.setStreamOffset off) hl rfl rfl rfl o o' ho)⟩
      · cases h; exact ⟨fun o ho => Or.inl ho, fun o o' ho => Or.inl ho⟩
    | clearTable c =>
      simp only [step] at h
      split at h
      · rename_i l hl
        cases h
        exact ⟨fun o ho => Or.inl ho, fun o o' ho => Or.inl (fewer_list (w' := w.setConsumer c (.list (l.clearTable))) (l' := l.clearTable) hl rfl rfl rfl o o' ho)⟩
      · cases h; exact ⟨fun o ho => Or.inl ho, fun o o' ho => Or.inl ho⟩
    | resetList c =>
      simp only [step] at h
      split at h
      · rename_i l hl
        cases h
        exact ⟨fun o ho => Or.inl ho, fun o o' ho => Or.inl (fewer_list (w' := w.setConsumer c (.list (l.reset))) (l' := l.reset) hl rfl rfl rfl o o' ho)⟩
      · cases h; exact ⟨fun o ho => Or.inl ho, fun o o' ho => Or.inl ho⟩
    | setName e name =>
      obtain ⟨l, -, h⟩ := bind_ok h
      cases h
      exact ⟨fun o ho => Or.inl ho, fun o o' ho => Or.inl (points_congr (w := w) (w' := { w with engines := w.engines.set e l }) (fun _ _ h => h) rfl o o' ho)⟩
    | assignEngine e l =>
      cases h
      exact ⟨fun o ho => Or.inl ho, fun o o' ho => Or.inl (points_congr (w := w) (w' := { w with engines := w.engines.set e l }) (fun _ _ h => h) rfl o o' ho)⟩
    | _ => cases hp

end World

end RR32
