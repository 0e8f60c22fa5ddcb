import Verif.Model.World

/-! # What the parts of the program leave alone -/

set_option autoImplicit false

namespace RR32

/-- The monadic fold over `Res`: an invariant of the steps is an invariant of the fold. -/
theorem foldlM_inv {α β : Type} (f : β → α → Res β) (P : β → Prop) (hf : ∀ b a b', P b → f b a = .ok b' → P b') :
    ∀ (l : List α) (b b' : β), P b → l.foldlM f b = .ok b' → P b' := by
  intro l
  induction l with
  | nil =>
    intro b b' hb h
    simp only [List.foldlM_nil, pure, Except.pure, Except.ok.injEq] at h
    exact h ▸ hb
  | cons a l ih =>
    intro b b' hb h
    simp only [List.foldlM_cons, bind, Except.bind] at h
    cases hs : f b a with
    | error e => rw [hs] at h; cases h
    | ok c =>
      rw [hs] at h
      exact ih c b' (hf b a c hb hs) h

/-- As `foldlM_inv`, with the membership of the element. -/
theorem foldlM_inv_mem {α β : Type} (f : β → α → Res β) (P : β → Prop) :
    ∀ (l : List α), (∀ b a b', a ∈ l → P b → f b a = .ok b' → P b') → ∀ (b b' : β), P b → l.foldlM f b = .ok b' → P b' := by
  intro l
  induction l with
  | nil =>
    intro _ b b' hb h
    simp only [List.foldlM_nil, pure, Except.pure, Except.ok.injEq] at h
    exact h ▸ hb
  | cons a l ih =>
    intro hf b b' hb h
    simp only [List.foldlM_cons, bind, Except.bind] at h
    cases hs : f b a with
    | error e => rw [hs] at h; cases h
    | ok c =>
      rw [hs] at h
      exact ih (fun b a b' ha => hf b a b' (List.mem_cons_of_mem _ ha)) c b' (hf b a c (List.mem_cons_self ..) hb hs) h

theorem bind_ok {α β : Type} {x : Res α} {f : α → Res β} {b : β} (h : (x >>= f) = .ok b) : ∃ a, x = .ok a ∧ f a = .ok b := by
  cases x with
  | error e => cases h
  | ok a => exact ⟨a, rfl, h⟩

/-- A log entry that is not a call of the station on the application. -/
def LogEntry.notCall : LogEntry → Prop
  | .call _ => False
  | _ => True

namespace World

/-- `w'` has the same station and platform as `w`, and a log that grew only by entries about consumers. -/
def Quiet (w w' : World) : Prop :=
  w'.station = w.station ∧ w'.pf = w.pf ∧ ∃ l, w'.log = w.log ++ l ∧ ∀ e ∈ l, e.notCall

theorem Quiet.refl (w : World) : Quiet w w := ⟨rfl, rfl, [], by simp, by intro e h; cases h⟩

theorem Quiet.trans {a b c : World} (h1 : Quiet a b) (h2 : Quiet b c) : Quiet a c := by
  obtain ⟨s1, p1, l1, e1, n1⟩ := h1
  obtain ⟨s2, p2, l2, e2, n2⟩ := h2
  refine ⟨s2.trans s1, p2.trans p1, l1 ++ l2, by rw [e2, e1, List.append_assoc], ?_⟩
  intro e he
  rcases List.mem_append.mp he with h | h
  · exact n1 e h
  · exact n2 e h

theorem endLog_notCall {σ : Type} (n : Nat) (f : σ → Seen) (l : List (EndCall σ)) : ∀ e ∈ endLog n f l, e.notCall := by
  intro e he
  simp only [endLog, List.mem_map] at he
  obtain ⟨x, _, rfl⟩ := he
  trivial

/-- What a virtual call does to the rest of the program, spelled out. -/
theorem callConsumer_quiet (w w' : World) (c : ConsumerCall) (h : w.callConsumer c = .ok w') :
    Quiet w w' ∧ w'.parsers = w.parsers := by
  unfold callConsumer at h
  have one : ∀ e ∈ [LogEntry.consumer c], e.notCall := by
    intro e he
    rw [List.mem_singleton.mp he]
    trivial
  have two : ∀ (σ : Type) (n : Nat) (f : σ → Seen) (l : List (EndCall σ)), ∀ e ∈ [LogEntry.consumer c] ++ endLog n f l, e.notCall := by
    intro σ n f l e he
    rcases List.mem_append.mp he with h | h
    · exact one e h
    · exact endLog_notCall n f l e h
  simp only at h
  split at h
  · obtain ⟨es, _, h2⟩ := bind_ok h
    injection h2 with h2; subst h2
    exact ⟨⟨rfl, rfl, [.consumer c], rfl, one⟩, rfl⟩
  · obtain ⟨⟨es, ends⟩, _, h2⟩ := bind_ok h
    injection h2 with h2; subst h2
    exact ⟨⟨rfl, rfl, [.consumer c] ++ endLog c.consumer Seen.engine ends, by simp only [logAll, List.append_assoc], two _ _ _ _⟩, rfl⟩
  · obtain ⟨ends, _, h2⟩ := bind_ok h
    injection h2 with h2; subst h2
    exact ⟨⟨rfl, rfl, [.consumer c] ++ endLog c.consumer (fun _ => .nothing) ends, by simp only [logAll, List.append_assoc], two _ _ _ _⟩, rfl⟩
  · obtain ⟨l, _, h2⟩ := bind_ok h
    injection h2 with h2; subst h2
    exact ⟨⟨rfl, rfl, [.consumer c], rfl, one⟩, rfl⟩
  · obtain ⟨⟨l, ends⟩, _, h2⟩ := bind_ok h
    injection h2 with h2; subst h2
    exact ⟨⟨rfl, rfl, [.consumer c] ++ endLog c.consumer Seen.list ends, by simp only [logAll, setConsumer, List.append_assoc], two _ _ _ _⟩, rfl⟩
  · obtain ⟨⟨l, ends⟩, _, h2⟩ := bind_ok h
    injection h2 with h2; subst h2
    exact ⟨⟨rfl, rfl, [.consumer c] ++ endLog c.consumer Seen.list ends, by simp only [logAll, setConsumer, List.append_assoc], two _ _ _ _⟩, rfl⟩
  · injection h with h; subst h
    exact ⟨⟨rfl, rfl, [.consumer c], rfl, one⟩, rfl⟩

theorem callConsumers_quiet (w w' : World) (cs : List ConsumerCall) (h : w.callConsumers cs = .ok w') :
    Quiet w w' ∧ w'.parsers = w.parsers := by
  refine foldlM_inv callConsumer (fun v => Quiet w v ∧ v.parsers = w.parsers) ?_ cs w w' ⟨Quiet.refl w, rfl⟩ h
  intro b a b' hb hs
  obtain ⟨q, p⟩ := callConsumer_quiet b b' a hs
  exact ⟨hb.1.trans q, p.trans hb.2⟩

theorem parserAdd_quiet (w w' : World) (n : Nat) (d : Data) (h : w.parserAdd n d = .ok w') : Quiet w w' := by
  obtain ⟨⟨p, calls⟩, _, h2⟩ := bind_ok h
  exact (callConsumers_quiet _ _ _ h2).1

theorem parserReset_quiet (w w' : World) (n : Nat) (h : w.parserReset n = .ok w') : Quiet w w' := by
  obtain ⟨⟨p, calls⟩, _, h2⟩ := bind_ok h
  exact (callConsumers_quiet _ _ _ h2).1

/-- A call of the station leaves the station alone and adds itself to the log, if it is one on the application. -/
theorem runCall_log (w w' : World) (c : Call) (h : w.runCall c = .ok w') :
    w'.station = w.station ∧ w'.pf = w.pf ∧ ∃ l, w'.log = w.log ++ l ∧ ∀ e ∈ l, e.notCall ∨ e = .call c := by
  unfold runCall at h
  split at h
  · injection h with h; subst h
    exact ⟨rfl, rfl, [], by simp [setParser], by intro e h; cases h⟩
  · obtain ⟨a, b, l, e, n⟩ := parserAdd_quiet _ _ _ _ h
    exact ⟨a, b, l, e, fun x hx => Or.inl (n x hx)⟩
  · obtain ⟨a, b, l, e, n⟩ := parserReset_quiet _ _ _ h
    exact ⟨a, b, l, e, fun x hx => Or.inl (n x hx)⟩
  · injection h with h; subst h
    exact ⟨rfl, rfl, [.call c], rfl, fun e he => Or.inr (List.mem_singleton.mp he)⟩

theorem runCalls_log (w w' : World) (cs : List Call) (h : w.runCalls cs = .ok w') :
    w'.station = w.station ∧ w'.pf = w.pf ∧
    ∃ l, w'.log = w.log ++ l ∧ ∀ e ∈ l, e.notCall ∨ ∃ c ∈ cs, e = .call c := by
  refine foldlM_inv_mem runCall
    (fun v => v.station = w.station ∧ v.pf = w.pf ∧ ∃ l, v.log = w.log ++ l ∧ ∀ e ∈ l, e.notCall ∨ ∃ c ∈ cs, e = .call c)
    cs ?_ w w' ⟨rfl, rfl, [], by simp, by intro e h; cases h⟩ h
  intro b c b' hc hb hs
  obtain ⟨s1, p1, l1, e1, n1⟩ := hb
  obtain ⟨s2, p2, l2, e2, n2⟩ := runCall_log b b' c hs
  refine ⟨s2.trans s1, p2.trans p1, l1 ++ l2, by rw [e2, e1, List.append_assoc], ?_⟩
  intro e he
  rcases List.mem_append.mp he with h | h
  · exact n1 e h
  · rcases n2 e h with h | h
    · exact Or.inl h
    · exact Or.inr ⟨c, hc, h⟩

end World

end RR32
