import Verif.Spec.Output
import Verif.Proofs.Strings
import Verif.Proofs.Console
import Verif.Proofs.Receive
import Verif.Proofs.Nested

set_option autoImplicit false

namespace RR32

open Spec

theorem printIf_off (t : Res (List Byte)) : printIf false t = .ok [] := rfl
theorem printIf_on (t : Res (List Byte)) : printIf true t = t := rfl

theorem printIf_ok {b : Bool} {t : Res (List Byte)} (h : ∃ l, t = .ok l) : ∃ l, printIf b t = .ok l := by
  cases b
  · exact ⟨_, rfl⟩
  · exact h

theorem cstr_bad {m : List Byte} (h : ¬Terminated m) : cstr m = .error .oobRead :=
  cstr_noNul m (fun b hb h0 => h (by rw [h0] at hb; exact hb))

theorem entryText_ok (head : String) (s k v : BufferManager) (hs : Terminated s.mem) (hk : Terminated k.mem) (hv : Terminated v.mem) :
    ∃ t, entryText head s k v = .ok t := by
  unfold entryText
  rw [cstr_text hs, cstr_text hk, cstr_text hv]
  exact ⟨_, rfl⟩

theorem entryText_bad (head : String) (s k v : BufferManager) (h : ¬(Terminated s.mem ∧ Terminated k.mem ∧ Terminated v.mem)) :
    entryText head s k v = .error .oobRead := by
  unfold entryText
  by_cases hs : Terminated s.mem
  · rw [cstr_text hs]
    by_cases hk : Terminated k.mem
    · rw [cstr_text hk]
      have hv : ¬Terminated v.mem := fun hv => h ⟨hs, hk, hv⟩
      rw [cstr_bad hv]
      rfl
    · rw [cstr_bad hk]; rfl
  · rw [cstr_bad hs]; rfl

theorem settingText_ok {pf : Platform} {e e' : Locomotive} {s k v : BufferManager} (h : LocoConsumer.consumeOn pf e s k v = .ok e') :
    ∃ t, LocoConsumer.settingText s k = .ok t := by
  unfold LocoConsumer.consumeOn at h
  unfold LocoConsumer.settingText
  obtain ⟨b1, h1, h⟩ := bind_ok h
  rw [h1]
  cases b1 with
  | false => exact ⟨_, rfl⟩
  | true =>
    obtain ⟨b2, h2, h⟩ := bind_ok h
    simp only [bind, Except.bind, if_true] at *
    rw [h2]
    cases b2 with
    | true => exact ⟨_, rfl⟩
    | false =>
      simp only [Bool.false_eq_true, if_false] at h ⊢
      obtain ⟨b3, h3, h⟩ := bind_ok h
      rw [h3]
      cases b3 with
      | true => exact ⟨_, rfl⟩
      | false =>
        simp only [Bool.false_eq_true, if_false] at h ⊢
        obtain ⟨b4, h4, h⟩ := bind_ok h
        rw [h4]
        cases b4 <;> exact ⟨_, rfl⟩

theorem shortText_ok {i : ShortInfo} {u : Unit} (h : i.print = .ok u) : ∃ t, i.printText = .ok t := by
  unfold ShortInfo.print at h
  unfold ShortInfo.printText
  split
  · exact ⟨_, rfl⟩
  · rename_i hne
    rw [if_neg hne] at h
    obtain ⟨x, h1, -⟩ := bind_ok h
    rw [h1]
    exact ⟨_, rfl⟩

theorem printText_ok {l : Locomotive} {u : Unit} (h : l.print = .ok u) : ∃ t, l.printText = .ok t := by
  unfold Locomotive.print at h
  unfold Locomotive.printText
  obtain ⟨x, h1, h⟩ := bind_ok h
  obtain ⟨t, ht⟩ := shortText_ok h1
  rw [ht]
  simp only [bind, Except.bind] at h ⊢
  split
  · rename_i hf
    rw [if_pos hf] at h
    obtain ⟨y, h2, -⟩ := bind_ok h
    rw [h2]
    exact ⟨_, rfl⟩
  · exact ⟨_, rfl⟩

theorem consumeText_ok {pf : Platform} {c c' : LocoListConsumer} {s k v : BufferManager} (h : c.consumeConfigData pf s k v = .ok c') :
    ∃ t, c.consumeText s v = .ok t := by
  unfold LocoListConsumer.consumeConfigData at h
  unfold LocoListConsumer.consumeText
  obtain ⟨b1, h1, h⟩ := bind_ok h
  rw [h1]
  cases b1 with
  | true =>
    simp only [bind, Except.bind, if_true] at h ⊢
    cases hf : c.findFirstFreeEntry with
    | none => exact ⟨_, rfl⟩
    | some i =>
      rw [hf] at h
      obtain ⟨x, h2, -⟩ := bind_ok h
      simp only []
      rw [h2]
      exact ⟨_, rfl⟩
  | false =>
    simp only [bind, Except.bind, Bool.false_eq_true, if_false] at h ⊢
    obtain ⟨b2, h2, h⟩ := bind_ok h
    rw [h2]
    cases b2 with
    | true => exact ⟨_, rfl⟩
    | false =>
      simp only [Bool.false_eq_true, if_false] at h ⊢
      obtain ⟨x, h3, -⟩ := bind_ok h
      rw [h3]
      exact ⟨_, rfl⟩

namespace World

variable (g : LogConfig)

/-- A function with its text: it does what the function does, if what it prints can be printed, and reads outside an object otherwise. -/
structure Prints {α : Type} (f : World → α → Res (World × List Byte)) (h : World → α → Res World) (L : World → α → World → Prop) : Prop where
  good : ∀ w x v, h w x = .ok v → L w x v → ∃ t, f w x = .ok (v, t)
  bad : ∀ w x v, h w x = .ok v → ¬L w x v → f w x = .error .oobRead
  fault : ∀ w x e, h w x = .error e → ∃ e', f w x = .error e'

theorem Prints.same {α : Type} {f : World → α → Res (World × List Byte)} {h : World → α → Res World} {L : World → α → World → Prop}
    (p : Prints f h L) {w v : World} {x : α} {t : List Byte} (hf : f w x = .ok (v, t)) : h w x = .ok v ∧ L w x v := by
  cases hh : h w x with
  | error e =>
    obtain ⟨e', he⟩ := p.fault w x e hh
    rw [he] at hf; cases hf
  | ok u =>
    by_cases hL : L w x u
    · obtain ⟨t', ht⟩ := p.good w x u hh hL
      rw [ht] at hf; cases hf
      exact ⟨rfl, hL⟩
    · rw [p.bad w x u hh hL] at hf; cases hf

/-- Which consumers are the application's own. -/
def apps (w : World) (n : Nat) : Bool := w.consumers n == .app

/-- The entries of what a call adds to the log can be printed. -/
def Adds (w v : World) : Prop := EntriesPrintable g w (v.log.drop w.log.length)

/-- A function that only adds to the log, and leaves own consumers own consumers. -/
def Growing {α : Type} (h : World → α → Res World) : Prop :=
  ∀ w x v, h w x = .ok v → (∃ l, v.log = w.log ++ l) ∧ v.apps = w.apps

theorem printable_apps {w v : World} (ha : v.apps = w.apps) (l : List LogEntry) : EntriesPrintable g w l ↔ EntriesPrintable g v l := by
  have key : ∀ n, w.consumers n ≠ .app ↔ v.consumers n ≠ .app := by
    intro n
    have := congrFun ha n
    unfold apps at this
    by_cases h1 : w.consumers n = .app <;> by_cases h2 : v.consumers n = .app <;> simp_all
  unfold EntriesPrintable
  constructor
  · intro h he n s k v hm hn; exact h he n s k v hm ((key n).mpr hn)
  · intro h he n s k v hm hn; exact h he n s k v hm ((key n).mp hn)

theorem printable_append (w : World) (a b : List LogEntry) :
    EntriesPrintable g w (a ++ b) ↔ EntriesPrintable g w a ∧ EntriesPrintable g w b := by
  unfold EntriesPrintable
  constructor
  · intro h
    exact ⟨fun he n s k v hm => h he n s k v (List.mem_append_left _ hm), fun he n s k v hm => h he n s k v (List.mem_append_right _ hm)⟩
  · rintro ⟨h1, h2⟩ he n s k v hm
    rcases List.mem_append.mp hm with hm | hm
    · exact h1 he n s k v hm
    · exact h2 he n s k v hm

theorem adds_trans {w u v : World} (h1 : ∃ l, u.log = w.log ++ l) (ha : u.apps = w.apps) (h2 : ∃ l, v.log = u.log ++ l) :
    Adds g w v ↔ Adds g w u ∧ Adds g u v := by
  obtain ⟨l1, h1⟩ := h1
  obtain ⟨l2, h2⟩ := h2
  unfold Adds
  rw [h2, h1, List.append_assoc, List.drop_left, List.drop_left, ← List.append_assoc, List.drop_left, printable_append,
    printable_apps g ha l2]

theorem adds_same {w v : World} (h : v.log = w.log) : Adds g w v := by
  unfold Adds
  rw [h, List.drop_length]
  intro _ n s k v hm
  cases hm

theorem growing_fold {α : Type} {h : World → α → Res World} (hg : Growing h) : Growing (fun w (xs : List α) => xs.foldlM h w) := by
  intro w xs
  induction xs generalizing w with
  | nil => intro v hv; cases hv; exact ⟨⟨[], (List.append_nil _).symm⟩, rfl⟩
  | cons x xs ih =>
    intro v hv
    dsimp only at hv
    rw [List.foldlM_cons] at hv
    obtain ⟨u, h1, h2⟩ := bind_ok hv
    obtain ⟨⟨l1, e1⟩, a1⟩ := hg w x u h1
    obtain ⟨⟨l2, e2⟩, a2⟩ := ih u v h2
    exact ⟨⟨l1 ++ l2, by rw [e2, e1, List.append_assoc]⟩, a2.trans a1⟩

theorem prints_inTurn {α : Type} {f : World → α → Res (World × List Byte)} {h : World → α → Res World}
    (p : Prints f h (fun w _ v => Adds g w v)) (hg : Growing h) :
    Prints (inTurn f) (fun w (xs : List α) => xs.foldlM h w) (fun w _ v => Adds g w v) := by
  constructor
  · intro w xs
    induction xs generalizing w with
    | nil => intro v hv _; cases hv; exact ⟨_, rfl⟩
    | cons x xs ih =>
      intro v hv hL
      rw [List.foldlM_cons] at hv
      obtain ⟨u, h1, h2⟩ := bind_ok hv
      have g1 := hg w x u h1
      have g2 := growing_fold hg u xs v h2
      obtain ⟨L1, L2⟩ := (adds_trans g g1.1 g1.2 g2.1).mp hL
      obtain ⟨t1, e1⟩ := p.good w x u h1 L1
      obtain ⟨t2, e2⟩ := ih u v h2 L2
      refine ⟨t1 ++ t2, ?_⟩
      rw [inTurn, e1]
      simp only [bind, Except.bind]
      rw [e2]
  · intro w xs
    induction xs generalizing w with
    | nil => intro v hv hL; cases hv; exact absurd (adds_same g rfl) hL
    | cons x xs ih =>
      intro v hv hL
      rw [List.foldlM_cons] at hv
      obtain ⟨u, h1, h2⟩ := bind_ok hv
      have g1 := hg w x u h1
      have g2 := growing_fold hg u xs v h2
      rw [adds_trans g g1.1 g1.2 g2.1] at hL
      by_cases L1 : Adds g w u
      · obtain ⟨t1, e1⟩ := p.good w x u h1 L1
        have e2 := ih u v h2 (fun L2 => hL ⟨L1, L2⟩)
        rw [inTurn, e1]
        simp only [bind, Except.bind]
        rw [e2]
      · rw [inTurn, p.bad w x u h1 L1]
        rfl
  · intro w xs
    induction xs generalizing w with
    | nil => intro e hv; cases hv
    | cons x xs ih =>
      intro e hv
      rw [List.foldlM_cons] at hv
      rw [inTurn]
      cases hf : f w x with
      | error e' => exact ⟨e', rfl⟩
      | ok r =>
        obtain ⟨u, t⟩ := r
        obtain ⟨h1, -⟩ := p.same hf
        rw [h1] at hv
        obtain ⟨e', he⟩ := ih u e hv
        refine ⟨e', ?_⟩
        simp only [bind, Except.bind]
        rw [he]

theorem growing_callConsumer : Growing callConsumer := by
  intro w c v h
  obtain ⟨-, -, -, -, l, hl, -⟩ := callConsumer_log w v c h
  refine ⟨⟨_, by rw [hl, List.append_assoc]⟩, ?_⟩
  have hr := callConsumer_reaches h
  funext n
  have := congrFun hr (.consumer ⟨n, .complete⟩)
  exact this

theorem prints_callConsumer : Prints (callConsumerO g) callConsumer (fun w _ v => Adds g w v) := by
  have hadds : ∀ (w : World) (c : ConsumerCall) (v : World), w.callConsumer c = .ok v →
      (Adds g w v ↔ EntriesPrintable g w [.consumer c]) := by
    intro w c v h
    obtain ⟨-, -, -, -, l, hl, hend⟩ := callConsumer_log w v c h
    unfold Adds
    rw [hl, List.append_assoc, List.drop_left, printable_append]
    refine ⟨fun h => h.1, fun h => ⟨h, ?_⟩⟩
    rcases hend with rfl | ⟨cb, b, seen, -, -, rfl⟩
    · intro _ n s k v hm; cases hm
    · intro _ n s k v hm; simp at hm
  have texts : ∀ (w : World) (c : ConsumerCall) (v : World), w.callConsumer c = .ok v →
      (EntriesPrintable g w [.consumer c] → ∃ t, w.consumerText g c = .ok t) ∧
      (¬EntriesPrintable g w [.consumer c] → w.consumerText g c = .error .oobRead) := by
    intro w c v h
    have quiet : (∀ s k v, c.action ≠ .consume s k v) ∨ w.consumers c.consumer = .app → EntriesPrintable g w [.consumer c] := by
      intro hq _ n s k v hm hn
      have hm := List.mem_singleton.mp hm
      cases hm
      rcases hq with hq | hq
      · exact absurd rfl (hq s k v)
      · exact absurd hq hn
    unfold consumerText
    rcases callConsumer_cases h with ⟨l, s, k, x, es, hc, ha, he, -⟩ | ⟨l, es, ends, hc, ha, he, -⟩ | ⟨l, ends, hc, ha, he, -⟩ |
      ⟨l, s, k, x, l', hc, ha, he, -⟩ | ⟨l, l', ends, hc, ha, he, -⟩ | ⟨l, l', ends, hc, ha, he, -⟩ | ⟨hc, -⟩
    · rw [hc, ha]
      dsimp only
      unfold LocoConsumer.consumeConfigData at he
      obtain ⟨e, he1, he2⟩ := bind_ok he
      have rest : ∃ t', (match e with
          | none => (.ok [] : Res (List Byte))
          | some _ => printIf g.events (LocoConsumer.settingText s k)) = .ok t' := by
        cases e with
        | none => exact ⟨_, rfl⟩
        | some n =>
          dsimp only at he2
          obtain ⟨e', he3, -⟩ := bind_ok he2
          exact printIf_ok (settingText_ok he3)
      have fin : ∀ t, ∃ t', (do
          match ← l.currentEngine.read with
          | none => .ok t
          | some _ => do
              let t' ← printIf g.events (LocoConsumer.settingText s k)
              .ok (t ++ t') : Res (List Byte)) = .ok t' := by
        intro t
        rw [he1]
        cases e with
        | none => exact ⟨_, rfl⟩
        | some n =>
          obtain ⟨t', ht⟩ := rest
          simp only [bind, Except.bind]
          dsimp only at ht
          rw [ht]
          exact ⟨_, rfl⟩
      constructor
      · intro hL
        have : ∃ t, printIf g.events (entryText "EngineControl" s k x) = .ok t := by
          cases hg : g.events with
          | false => exact ⟨_, rfl⟩
          | true =>
            obtain ⟨h1, h2, h3⟩ := hL hg c.consumer s k x (by rw [List.mem_singleton, ← ha]) (by rw [hc]; simp)
            exact entryText_ok _ _ _ _ h1 h2 h3
        obtain ⟨t, ht⟩ := this
        rw [ht]
        exact fin t
      · intro hL
        cases hg : g.events with
        | false => exact absurd (fun h => by rw [hg] at h; cases h) hL
        | true =>
          have hbad : ¬(Terminated s.mem ∧ Terminated k.mem ∧ Terminated x.mem) := by
            intro hT
            apply hL
            intro _ n s' k' v' hm _
            have hm := List.mem_singleton.mp hm
            cases hm
            cases ha
            exact hT
          rw [printIf_on, entryText_bad _ _ _ _ hbad]
          rfl
    · refine ⟨fun _ => ?_, fun hn => absurd (quiet (.inl fun _ _ _ h => by rw [ha] at h; cases h)) hn⟩
      rw [hc, ha]
      dsimp only
      unfold LocoConsumer.setStreamComplete at he
      obtain ⟨e, he1, he2⟩ := bind_ok he
      rw [he1]
      cases e with
      | none => exact ⟨_, rfl⟩
      | some n =>
        dsimp only at he2
        obtain ⟨u, hp, -⟩ := bind_ok he2
        obtain ⟨t, ht⟩ := printText_ok hp
        refine ⟨str "Downloaded Engine: " ++ t ++ str "\n", ?_⟩
        simp only [bind, Except.bind, LocoConsumer.completeText, ht]
    · refine ⟨fun _ => ?_, fun hn => absurd (quiet (.inl fun _ _ _ h => by rw [ha] at h; cases h)) hn⟩
      rw [hc, ha]
      exact ⟨_, rfl⟩
    · rw [hc, ha]
      dsimp only
      obtain ⟨t', ht'⟩ := consumeText_ok he
      constructor
      · intro hL
        have : ∃ t, printIf g.events (entryText "EngineBrowser" s k x) = .ok t := by
          cases hg : g.events with
          | false => exact ⟨_, rfl⟩
          | true =>
            obtain ⟨h1, h2, h3⟩ := hL hg c.consumer s k x (by rw [List.mem_singleton, ← ha]) (by rw [hc]; simp)
            exact entryText_ok _ _ _ _ h1 h2 h3
        obtain ⟨t, ht⟩ := this
        rw [ht, ht']
        exact ⟨_, rfl⟩
      · intro hL
        cases hg : g.events with
        | false => exact absurd (fun h => by rw [hg] at h; cases h) hL
        | true =>
          have hbad : ¬(Terminated s.mem ∧ Terminated k.mem ∧ Terminated x.mem) := by
            intro hT
            apply hL
            intro _ n s' k' v' hm _
            have hm := List.mem_singleton.mp hm
            cases hm
            cases ha
            exact hT
          rw [printIf_on, entryText_bad _ _ _ _ hbad]
          rfl
    · refine ⟨fun _ => ?_, fun hn => absurd (quiet (.inl fun _ _ _ h => by rw [ha] at h; cases h)) hn⟩
      rw [hc, ha]
      exact ⟨_, rfl⟩
    · refine ⟨fun _ => ?_, fun hn => absurd (quiet (.inl fun _ _ _ h => by rw [ha] at h; cases h)) hn⟩
      rw [hc, ha]
      exact ⟨_, rfl⟩
    · refine ⟨fun _ => ?_, fun hn => absurd (quiet (.inr hc)) hn⟩
      rw [hc]
      exact ⟨_, rfl⟩
  constructor
  · intro w c v h hL
    obtain ⟨t, ht⟩ := (texts w c v h).1 ((hadds w c v h).mp hL)
    refine ⟨t, ?_⟩
    rw [callConsumerO, ht]
    simp only [bind, Except.bind]
    rw [h]
  · intro w c v h hL
    rw [callConsumerO, (texts w c v h).2 (fun h' => hL ((hadds w c v h).mpr h'))]
    rfl
  · intro w c e h
    rw [callConsumerO]
    cases w.consumerText g c with
    | error e' => exact ⟨e', rfl⟩
    | ok t =>
      simp only [bind, Except.bind]
      rw [h]
      exact ⟨e, rfl⟩

theorem growing_callConsumers : Growing callConsumers := growing_fold growing_callConsumer

theorem prints_callConsumers : Prints (inTurn (callConsumerO g)) callConsumers (fun w _ v => Adds g w v) :=
  prints_inTurn g (prints_callConsumer g) growing_callConsumer

theorem Prints.of {α : Type} {f : World → α → Res (World × List Byte)} {h : World → α → Res World} {L : World → α → World → Prop}
    (good : ∀ w x v, h w x = .ok v → L w x v → ∃ t, f w x = .ok (v, t)) (bad : ∀ w x v, h w x = .ok v → ¬L w x v → f w x = .error .oobRead)
    (sound : ∀ w x v t, f w x = .ok (v, t) → h w x = .ok v) : Prints f h L := by
  refine ⟨good, bad, fun w x e he => ?_⟩
  cases hf : f w x with
  | error e' => exact ⟨e', rfl⟩
  | ok r =>
    rw [sound w x r.1 r.2 hf] at he
    cases he

theorem notify_entries (p : StreamParser) (a : ConsumerAction) (ha : ∀ s k v, a ≠ .consume s k v) : (p.notify a).filter (·.isEntry) = [] := by
  unfold StreamParser.notify
  cases p.consumer with
  | none => rfl
  | some c => cases a with
    | consume s k v => exact absurd rfl (ha s k v)
    | complete => rfl
    | aborted => rfl

theorem notify_others (p : StreamParser) (a : ConsumerAction) (ha : ∀ s k v, a ≠ .consume s k v) :
    (p.notify a).filter (!·.isEntry) = p.notify a := by
  unfold StreamParser.notify
  cases p.consumer with
  | none => rfl
  | some c => cases a with
    | consume s k v => exact absurd rfl (ha s k v)
    | complete => rfl
    | aborted => rfl

/-- Entries come before the end. -/
def EndsLast (cs : List ConsumerCall) : Prop := cs.filter (·.isEntry) ++ cs.filter (!·.isEntry) = cs

theorem endsLast_notify (p : StreamParser) (a : ConsumerAction) (ha : ∀ s k v, a ≠ .consume s k v) (evs : List ParseEvent) :
    EndsLast (evs.map StreamParser.ofParseEvent ++ p.notify a) := by
  unfold EndsLast
  rw [List.filter_append, List.filter_append, notify_entries p a ha, notify_others p a ha]
  have h1 : (evs.map StreamParser.ofParseEvent).filter (·.isEntry) = evs.map StreamParser.ofParseEvent := by
    rw [List.filter_eq_self]
    intro x hx
    obtain ⟨e, -, rfl⟩ := List.mem_map.mp hx
    rfl
  have h2 : (evs.map StreamParser.ofParseEvent).filter (!·.isEntry) = [] := by
    rw [List.filter_eq_nil_iff]
    intro x hx
    obtain ⟨e, -, rfl⟩ := List.mem_map.mp hx
    simp [StreamParser.ofParseEvent, ConsumerCall.isEntry]
  rw [h1, h2, List.append_nil, List.nil_append]

theorem endsLast_reset {p q : StreamParser} {cs : List ConsumerCall} (h : p.reset = .ok (q, cs)) : EndsLast cs := by
  unfold StreamParser.reset at h
  obtain ⟨x, -, h⟩ := bind_ok h
  cases h
  unfold StreamParser.resetNotify
  split
  · exact endsLast_notify p .aborted (fun _ _ _ h => by cases h) []
  · rfl

theorem message_printed {p q : StreamParser} {d : Data} {cs : List ConsumerCall} (h : p.addMessage d = .ok (q, cs)) :
    EndsLast cs ∧ (∃ t, p.headText g d = .ok t) ∧ ∃ t, p.tailText g d q = .ok t := by
  unfold StreamParser.addMessage at h
  unfold StreamParser.headText StreamParser.tailText
  cases hs : p.state with
  | IDLE => rw [hs] at h; cases h; exact ⟨rfl, ⟨_, rfl⟩, ⟨[], by simp⟩⟩
  | STREAM_DONE => rw [hs] at h; cases h; exact ⟨rfl, ⟨_, rfl⟩, ⟨[], by simp⟩⟩
  | WAITING_FIRST_PACKET =>
    rw [hs] at h
    dsimp only at h ⊢
    refine ⟨?_, ?_, ⟨[], by simp⟩⟩
    · unfold StreamParser.addFirst at h
      split at h
      · obtain ⟨c, hc, h⟩ := bind_ok h
        dsimp only at h
        split at h
        · cases h; rfl
        · cases h; exact endsLast_notify _ .complete (fun _ _ _ h => by cases h) []
      · split at h
        · exact endsLast_reset h
        · split at h
          · exact endsLast_reset h
          · cases h; rfl
    · split
      · rename_i hd
        unfold StreamParser.addFirst at h
        rw [if_pos hd] at h
        obtain ⟨c, hc, -⟩ := bind_ok h
        refine printIf_ok ?_
        rw [hc]
        exact ⟨_, rfl⟩
      · exact ⟨_, rfl⟩
  | WAITING_DATA_PACKET =>
    rw [hs] at h
    dsimp only at h ⊢
    unfold StreamParser.addData at h
    by_cases hd : d.dlc = 8#8
    · rw [if_neg (not_not.mpr hd)] at h
      rw [if_pos hd, if_pos ⟨rfl, hd⟩]
      obtain ⟨c, hc, h⟩ := bind_ok h
      dsimp only at h
      obtain ⟨⟨text, evs⟩, -, h⟩ := bind_ok h
      dsimp only at h
      have hq : EndsLast cs ∧ ∃ c, q.crc = some c := by
        split at h
        · split at h
          · cases h; exact ⟨endsLast_notify _ .complete (fun _ _ _ h => by cases h) evs, _, rfl⟩
          · cases h; exact ⟨endsLast_notify _ .aborted (fun _ _ _ h => by cases h) evs, _, rfl⟩
        · cases h
          refine ⟨?_, _, rfl⟩
          have := endsLast_notify (StreamParser.mk .IDLE 0#32 text none none) .aborted (fun _ _ _ h => by cases h) evs
          simpa [StreamParser.notify] using this
      obtain ⟨h1, c', h2⟩ := hq
      refine ⟨h1, ?_, ?_⟩
      · refine printIf_ok ?_
        rw [Data.printAsText, printed_eq d (by rw [hd]; decide)]
        exact ⟨_, rfl⟩
      · have hget : q.getCrc = .ok c' := by unfold StreamParser.getCrc; rw [h2]
        split
        · refine printIf_ok ?_
          rw [hget]
          simp only [bind, Except.bind]
          split <;> exact ⟨_, rfl⟩
        · refine printIf_ok ?_
          rw [hget]
          exact ⟨_, rfl⟩
    · rw [if_pos hd] at h
      rw [if_neg hd, if_neg (fun hh => hd hh.2)]
      exact ⟨endsLast_reset h, ⟨_, rfl⟩, _, rfl⟩

/-- `addMessage` on a parser object, as a function of two arguments. -/
def addPair (w : World) (x : Nat × Data) : Res World := w.parserAdd x.1 x.2

theorem growing_parserAdd : Growing addPair := by
  intro w x v h
  unfold addPair parserAdd at h
  obtain ⟨⟨q, cs⟩, -, h⟩ := bind_ok h
  exact growing_callConsumers (w.setParser x.1 q) cs v h

theorem prints_parserAdd : Prints (fun w x => parserAddO g w x.1 x.2) addPair (fun w _ v => Adds g w v) := by
  have pc := prints_callConsumers g
  refine Prints.of ?_ ?_ ?_
  · intro w x v h hL
    unfold addPair parserAdd at h
    obtain ⟨⟨q, cs⟩, hm, h⟩ := bind_ok h
    obtain ⟨he, ⟨t1, h1⟩, t3, h3⟩ := message_printed g hm
    dsimp only at h
    rw [← he, callConsumers_append] at h
    obtain ⟨u, hu, hv⟩ := bind_ok h
    have g1 := growing_callConsumers _ _ _ hu
    have g2 := growing_callConsumers _ _ _ hv
    have hL' : Adds g (w.setParser x.1 q) v := hL
    obtain ⟨L1, L2⟩ := (adds_trans g g1.1 g1.2 g2.1).mp hL'
    obtain ⟨t2, h2⟩ := pc.good _ _ _ hu L1
    obtain ⟨t4, h4⟩ := pc.good _ _ _ hv L2
    refine ⟨t1 ++ t2 ++ t3 ++ t4, ?_⟩
    unfold parserAddO
    dsimp only
    rw [h1, hm]
    simp only [bind, Except.bind]
    rw [h2]
    simp only [h3, h4]
  · intro w x v h hL
    unfold addPair parserAdd at h
    obtain ⟨⟨q, cs⟩, hm, h⟩ := bind_ok h
    obtain ⟨he, ⟨t1, h1⟩, t3, h3⟩ := message_printed g hm
    dsimp only at h
    rw [← he, callConsumers_append] at h
    obtain ⟨u, hu, hv⟩ := bind_ok h
    have g1 := growing_callConsumers _ _ _ hu
    have g2 := growing_callConsumers _ _ _ hv
    have hL' : ¬Adds g (w.setParser x.1 q) v := hL
    rw [adds_trans g g1.1 g1.2 g2.1] at hL'
    unfold parserAddO
    dsimp only
    rw [h1, hm]
    simp only [bind, Except.bind]
    by_cases L1 : Adds g (w.setParser x.1 q) u
    · obtain ⟨t2, h2⟩ := pc.good _ _ _ hu L1
      rw [h2]
      have h4 := pc.bad _ _ _ hv (fun L2 => hL' ⟨L1, L2⟩)
      simp only [h3, h4]
    · rw [pc.bad _ _ _ hu L1]
  · intro w x v t h
    unfold parserAddO at h
    dsimp only at h
    obtain ⟨t1, -, h⟩ := bind_ok h
    obtain ⟨⟨q, cs⟩, hm, h⟩ := bind_ok h
    obtain ⟨⟨u, t2⟩, hu, h⟩ := bind_ok h
    obtain ⟨t3, -, h⟩ := bind_ok h
    obtain ⟨⟨v', t4⟩, hv, h⟩ := bind_ok h
    cases h
    obtain ⟨hu, -⟩ := pc.same hu
    obtain ⟨hv, -⟩ := pc.same hv
    unfold addPair parserAdd
    rw [hm]
    simp only [bind, Except.bind]
    rw [← (message_printed g hm).1, callConsumers_append, hu]
    exact hv

theorem growing_parserReset : Growing parserReset := by
  intro w n v h
  unfold parserReset at h
  obtain ⟨⟨q, cs⟩, -, h⟩ := bind_ok h
  exact growing_callConsumers (w.setParser n q) cs v h

theorem prints_parserReset : Prints (parserResetO g) parserReset (fun w _ v => Adds g w v) := by
  have pc := prints_callConsumers g
  refine Prints.of ?_ ?_ ?_
  · intro w n v h hL
    unfold parserReset at h
    obtain ⟨⟨q, cs⟩, hm, h⟩ := bind_ok h
    obtain ⟨t, ht⟩ := pc.good _ _ _ h hL
    refine ⟨t, ?_⟩
    unfold parserResetO
    rw [hm]
    exact ht
  · intro w n v h hL
    unfold parserReset at h
    obtain ⟨⟨q, cs⟩, hm, h⟩ := bind_ok h
    unfold parserResetO
    rw [hm]
    exact pc.bad _ _ _ h hL
  · intro w n v t h
    unfold parserResetO at h
    obtain ⟨⟨q, cs⟩, hm, h⟩ := bind_ok h
    unfold parserReset
    rw [hm]
    exact (pc.same h).1

theorem adds_call (w : World) (c : Call) : Adds g w (w.logAll [.call c]) := by
  unfold Adds logAll
  dsimp only
  rw [List.drop_left]
  intro _ n s k v hm
  simp at hm

theorem growing_runCall : Growing runCall := by
  intro w c v h
  have plain : ∀ c', v = w.logAll [.call c'] → (∃ l, v.log = w.log ++ l) ∧ v.apps = w.apps := by
    rintro c' rfl; exact ⟨⟨_, rfl⟩, rfl⟩
  cases c with
  | cfgStart n => cases h; exact ⟨⟨[], (List.append_nil _).symm⟩, rfl⟩
  | cfgAdd n d => exact growing_parserAdd w (n, d) v h
  | cfgReset n => exact growing_parserReset w n v h
  | _ => cases h; exact plain _ rfl

theorem prints_runCall : Prints (runCallO g) runCall (fun w _ v => Adds g w v) := by
  refine Prints.of ?_ ?_ ?_
  · intro w c v h hL
    cases c with
    | cfgAdd n d => exact (prints_parserAdd g).good w (n, d) v h hL
    | cfgReset n => exact (prints_parserReset g).good w n v h hL
    | _ => cases h; exact ⟨_, rfl⟩
  · intro w c v h hL
    cases c with
    | cfgAdd n d => exact (prints_parserAdd g).bad w (n, d) v h hL
    | cfgReset n => exact (prints_parserReset g).bad w n v h hL
    | cfgStart n => cases h; exact absurd (adds_same g rfl) hL
    | _ => cases h; exact absurd (adds_call g w _) hL
  · intro w c v t h
    cases c with
    | cfgAdd n d => exact ((prints_parserAdd g).same (x := (n, d)) h).1
    | cfgReset n => exact ((prints_parserReset g).same h).1
    | _ => cases h; rfl

theorem growing_runCalls : Growing runCalls := growing_fold growing_runCall

theorem prints_runCalls : Prints (inTurn (runCallO g)) runCalls (fun w _ v => Adds g w v) :=
  prints_inTurn g (prints_runCall g) growing_runCall

/-- A call of a function of the station is its part of the station and the calls it makes. -/
theorem step_stationPart (w : World) (op : Op) (r : Res (Station × List Call)) (h : w.stationPart op = some r) :
    w.step op = w.stationUpdate r := by
  cases op <;> simp only [stationPart, Option.some.injEq, reduceCtorEq] at h <;> subst h <;> try rfl
  all_goals
    unfold step stationUpdate stationCalls
    dsimp only
    rw [bind_assoc]
    rfl

theorem printAsText_ok (d : Data) (h : d.dlc.toNat ≤ 9) : ∃ t, d.printAsText = .ok t := by
  rw [Data.printAsText, printed_eq d h]; exact ⟨_, rfl⟩
theorem printAsHex_ok (d : Data) (h : d.dlc.toNat ≤ 9) : ∃ t, d.printAsHex = .ok t := by
  rw [Data.printAsHex, printed_eq d h]; exact ⟨_, rfl⟩
theorem printAsText_bad (d : Data) (h : 9 < d.dlc.toNat) : d.printAsText = .error .oobRead := by
  rw [Data.printAsText, printed_overrun d h]; rfl
theorem printAsHex_bad (d : Data) (h : 9 < d.dlc.toNat) : d.printAsHex = .error .oobRead := by
  rw [Data.printAsHex, printed_overrun d h]; rfl

theorem packetText_ok {s : Station} {p : Bool} {f : CanFrame} {calls : List Call} (h : s.HandlePacket p f = .ok calls) :
    ∃ t, s.packetText p f = .ok t := by
  by_cases hd : f.data.dlc.toNat ≤ 9
  · obtain ⟨t, ht⟩ := printAsText_ok f.data hd
    obtain ⟨t', ht'⟩ := printAsHex_ok f.data hd
    unfold Station.packetText Station.configDataText
    rw [ht, ht']
    dsimp only
    repeat' split
    all_goals exact ⟨_, rfl⟩
  · have hb : f.data.printed = .error .oobRead := printed_overrun _ (by omega)
    unfold Station.HandlePacket Station.HandleConfigDataStream at h
    unfold Station.packetText Station.configDataText
    dsimp only at h ⊢
    rw [hb] at h
    split
    · exact ⟨_, rfl⟩
    rename_i n1
    rw [if_neg n1] at h
    split
    · exact ⟨_, rfl⟩
    rename_i n2
    rw [if_neg n2] at h
    split
    · exact ⟨_, rfl⟩
    rename_i n3
    rw [if_neg n3] at h
    split
    · exact ⟨_, rfl⟩
    rename_i n4
    rw [if_neg n4] at h
    split
    · exact ⟨_, rfl⟩
    rename_i n5
    rw [if_neg n5] at h
    split
    · exact ⟨_, rfl⟩
    rename_i n6
    rw [if_neg n6] at h
    split
    · exact ⟨_, rfl⟩
    rename_i n7
    rw [if_neg n7] at h
    split
    · rename_i y8
      rw [if_pos y8] at h
      cases hc : s.callbacks.configData with
      | none => rw [hc] at h; cases h
      | some cb =>
        rw [hc] at h
        cases p
        · cases h
        · exact ⟨_, rfl⟩
    · rename_i n8
      rw [if_neg n8] at h
      split at h <;> cases h

theorem handleText_ok {w : World} {f : CanFrame} (hp : ∃ t, w.station.packetText w.processing f = .ok t)
    (hf : FramePrintable g w (.handle f)) : ∃ t, w.handleText g f = .ok t := by
  obtain ⟨t5, h5⟩ := hp
  have hf := hf f rfl
  obtain ⟨t1, h1⟩ : ∃ t, printIf g.rawIn (.ok (f.id.printAll ++ str "\n")) = .ok t := printIf_ok ⟨_, rfl⟩
  obtain ⟨t2, h2⟩ : ∃ t, printIf (g.all && f.id.getCommand == kRequestConfigData) (do
      let t ← f.data.printAsText
      .ok (str "Request Config Data. Payload: " ++ t ++ str "\n")) = .ok t := by
    cases hb : (g.all && f.id.getCommand == kRequestConfigData) with
    | false => exact ⟨_, rfl⟩
    | true =>
      rw [Bool.and_eq_true, beq_iff_eq] at hb
      obtain ⟨t, ht⟩ := printAsText_ok f.data (hf hb.1 (.inl hb.2))
      rw [ht]; exact ⟨_, rfl⟩
  obtain ⟨t3, h3⟩ : ∃ t, printIf (g.all && f.id.getCommand == kConfigDataStream) (.ok (str "Config Data Stream.\n")) = .ok t :=
    printIf_ok ⟨_, rfl⟩
  obtain ⟨t4, h4⟩ : ∃ t, printIf (g.all && f.id.getCommand == kConfigDataStream && w.processing) (do
      let h ← f.data.printAsHex
      let t ← f.data.printAsText
      .ok (h ++ str " '" ++ t ++ str "' ")) = .ok t := by
    cases hb : (g.all && f.id.getCommand == kConfigDataStream && w.processing) with
    | false => exact ⟨_, rfl⟩
    | true =>
      rw [Bool.and_eq_true, Bool.and_eq_true, beq_iff_eq] at hb
      have hd := hf hb.1.1 (.inr ⟨hb.1.2, hb.2⟩)
      obtain ⟨t, ht⟩ := printAsText_ok f.data hd
      obtain ⟨t', ht'⟩ := printAsHex_ok f.data hd
      rw [ht, ht']; exact ⟨_, rfl⟩
  refine ⟨t1 ++ t2 ++ t3 ++ t4 ++ t5, ?_⟩
  unfold handleText
  rw [h1]
  simp only [bind, Except.bind] at h2 h4 ⊢
  rw [h2, h3]
  simp only []
  rw [h4]
  simp only []
  rw [h5]

theorem handleText_bad {w : World} {f : CanFrame} (hf : ¬FramePrintable g w (.handle f)) : w.handleText g f = .error .oobRead := by
  unfold FramePrintable at hf
  push Not at hf
  obtain ⟨f', hh, hg, hc, hd⟩ := hf
  cases hh
  have ht := printAsText_bad f.data hd
  have ht' := printAsHex_bad f.data hd
  unfold handleText
  have h1 : ∃ t, printIf g.rawIn (.ok (f.id.printAll ++ str "\n")) = .ok t := printIf_ok ⟨_, rfl⟩
  obtain ⟨t1, h1⟩ := h1
  rw [h1, hg, ht, ht']
  rcases hc with hc | ⟨hc, hp⟩
  · rw [hc]; rfl
  · rw [hc, hp]; rfl

theorem opText_ok {w : World} {op : Op} (h : ∀ f, op ≠ .handle f) : ∃ t, w.opText g op = .ok t := by
  cases op with
  | handle f => exact absurd rfl (h f)
  | requestEngine e p =>
    simp only [opText]
    repeat' split
    all_goals first | exact ⟨_, rfl⟩ | exact printIf_ok ⟨_, rfl⟩
  | requestShortInfo e p =>
    simp only [opText]
    repeat' split
    all_goals first | exact ⟨_, rfl⟩ | exact printIf_ok ⟨_, rfl⟩
  | sendAccessory a p d pw => exact printIf_ok ⟨_, rfl⟩
  | _ => exact ⟨_, rfl⟩

theorem growing_step : Growing step := by
  intro w op v h
  cases hp : w.stationPart op with
  | some r =>
    rw [step_stationPart w op r hp] at h
    unfold stationUpdate at h
    obtain ⟨⟨s, calls⟩, -, h⟩ := bind_ok h
    exact growing_runCalls { w with station := s } calls v h
  | none =>
    have same : v.log = w.log → v.apps = w.apps → (∃ l, v.log = w.log ++ l) ∧ v.apps = w.apps :=
      fun h1 h2 => ⟨⟨[], by rw [h1, List.append_nil]⟩, h2⟩
    have kind : ∀ c x, (w.consumers c == .app) = (x == .app) → v = w.setConsumer c x → (∃ l, v.log = w.log ++ l) ∧ v.apps = w.apps := by
      rintro c x hx rfl
      refine same rfl ?_
      funext m
      unfold apps setConsumer
      dsimp only
      by_cases hm : m = c
      · rw [if_pos hm, hm, hx]
      · rw [if_neg hm]
    cases op with
    | parserAdd n d => exact growing_parserAdd w (n, d) v h
    | parserReset n => exact growing_parserReset w n v h
    | parserStart n c => cases h; exact same rfl rfl
    | parserStartStream n => cases h; exact same rfl rfl
    | setEngine c e =>
      simp only [step] at h
      split at h
      · rename_i l hl; cases h; exact kind c _ (by rw [hl]; rfl) rfl
      · cases h; exact same rfl rfl
    | setEndCallback c e =>
      simp only [step] at h
      split at h
      · rename_i l hl; cases h; exact kind c _ (by rw [hl]; rfl) rfl
      · rename_i l hl; cases h; exact kind c _ (by rw [hl]; rfl) rfl
      · cases h; exact same rfl rfl
    | setStreamOffset c e =>
      simp only [step] at h
      split at h
      · rename_i l hl; cases h; exact kind c _ (by rw [hl]; rfl) rfl
      · cases h; exact same rfl rfl
    | clearTable c =>
      simp only [step] at h
      split at h
      · rename_i l hl; cases h; exact kind c _ (by rw [hl]; rfl) rfl
      · cases h; exact same rfl rfl
    | resetList c =>
      simp only [step] at h
      split at h
      · rename_i l hl; cases h; exact kind c _ (by rw [hl]; rfl) rfl
      · cases h; exact same rfl rfl
    | setName e name =>
      simp only [step] at h
      obtain ⟨l, -, h⟩ := bind_ok h
      cases h
      exact same rfl rfl
    | assignEngine e l => cases h; exact same rfl rfl
    | _ => cases hp

/-- What a call prints can be printed. -/
def StepPrintable (w : World) (op : Op) (v : World) : Prop := FramePrintable g w op ∧ Adds g w v

theorem prints_step : Prints (stepO g) step (StepPrintable g) := by
  have pc := prints_runCalls g
  have hof : ∀ (w : World) (op : Op) (v : World), w.step op = .ok v →
      (FramePrintable g w op → ∃ t, w.opText g op = .ok t) ∧ (¬FramePrintable g w op → w.opText g op = .error .oobRead) := by
    intro w op v h
    by_cases hh : ∃ f, op = .handle f
    · obtain ⟨f, rfl⟩ := hh
      refine ⟨fun hf => ?_, fun hf => handleText_bad g hf⟩
      simp only [step, stationCalls] at h
      obtain ⟨calls, hc, -⟩ := bind_ok h
      exact handleText_ok g (packetText_ok hc) hf
    · refine ⟨fun _ => opText_ok g (fun f hf => hh ⟨f, hf⟩), fun hf => absurd (fun f hf' => absurd ⟨f, hf'⟩ hh) hf⟩
  have none_same : ∀ (w : World) (op : Op) (v : World), w.stationPart op = none → (∀ n d, op ≠ .parserAdd n d) → (∀ n, op ≠ .parserReset n) →
      w.step op = .ok v → v.log = w.log := by
    intro w op v hp ha hr h
    cases op with
    | parserAdd n d => exact absurd rfl (ha n d)
    | parserReset n => exact absurd rfl (hr n)
    | parserStart n c => cases h; rfl
    | parserStartStream n => cases h; rfl
    | setEngine c e => simp only [step] at h; split at h <;> cases h <;> rfl
    | setEndCallback c e => simp only [step] at h; split at h <;> cases h <;> rfl
    | setStreamOffset c e => simp only [step] at h; split at h <;> cases h <;> rfl
    | clearTable c => simp only [step] at h; split at h <;> cases h <;> rfl
    | resetList c => simp only [step] at h; split at h <;> cases h <;> rfl
    | setName e name =>
      simp only [step] at h
      obtain ⟨l, -, h⟩ := bind_ok h
      cases h; rfl
    | assignEngine e l => cases h; rfl
    | _ => cases hp
  refine Prints.of ?_ ?_ ?_
  · rintro w op v h ⟨hf, hL⟩
    obtain ⟨t, ht⟩ := (hof w op v h).1 hf
    unfold stepO
    rw [ht]
    simp only [bind, Except.bind]
    cases hp : w.stationPart op with
    | some r =>
      rw [step_stationPart w op r hp] at h
      unfold stationUpdate at h
      obtain ⟨⟨s, calls⟩, hr, h⟩ := bind_ok h
      subst hr
      obtain ⟨t', ht'⟩ := pc.good { w with station := s } calls v h hL
      simp only [ht']
      exact ⟨_, rfl⟩
    | none =>
      by_cases ha : ∃ n d, op = .parserAdd n d
      · obtain ⟨n, d, rfl⟩ := ha
        exact (prints_parserAdd g).good w (n, d) v h hL
      by_cases hr : ∃ n, op = .parserReset n
      · obtain ⟨n, rfl⟩ := hr
        exact (prints_parserReset g).good w n v h hL
      refine ⟨t, ?_⟩
      split
      · contradiction
      · exact absurd ⟨_, _, rfl⟩ ha
      · exact absurd ⟨_, rfl⟩ hr
      · rw [h]
  · intro w op v h hL
    unfold stepO
    by_cases hf : FramePrintable g w op
    · obtain ⟨t, ht⟩ := (hof w op v h).1 hf
      replace hL : ¬Adds g w v := fun hL' => hL ⟨hf, hL'⟩
      rw [ht]
      simp only [bind, Except.bind]
      cases hp : w.stationPart op with
      | some r =>
        rw [step_stationPart w op r hp] at h
        unfold stationUpdate at h
        obtain ⟨⟨s, calls⟩, hr, h⟩ := bind_ok h
        subst hr
        have ht' := pc.bad { w with station := s } calls v h hL
        simp only [ht']
      | none =>
        by_cases ha : ∃ n d, op = .parserAdd n d
        · obtain ⟨n, d, rfl⟩ := ha
          exact (prints_parserAdd g).bad w (n, d) v h hL
        by_cases hr : ∃ n, op = .parserReset n
        · obtain ⟨n, rfl⟩ := hr
          exact (prints_parserReset g).bad w n v h hL
        exact absurd (adds_same g (none_same w op v hp (fun n d e => ha ⟨n, d, e⟩) (fun n e => hr ⟨n, e⟩) h)) hL
    · rw [(hof w op v h).2 hf]
      rfl
  · intro w op v t h
    unfold stepO at h
    obtain ⟨t0, -, h⟩ := bind_ok h
    cases hp : w.stationPart op with
    | some r =>
      rw [hp] at h
      dsimp only at h
      obtain ⟨⟨s, calls⟩, hr, h⟩ := bind_ok h
      obtain ⟨⟨u, t1⟩, hu, h⟩ := bind_ok h
      cases h
      rw [step_stationPart w op r hp, hr]
      exact (pc.same hu).1
    | none =>
      by_cases ha : ∃ n d, op = .parserAdd n d
      · obtain ⟨n, d, rfl⟩ := ha
        exact ((prints_parserAdd g).same (x := (n, d)) h).1
      by_cases hr : ∃ n, op = .parserReset n
      · obtain ⟨n, rfl⟩ := hr
        exact ((prints_parserReset g).same h).1
      rw [hp] at h
      split at h
      · contradiction
      · exact absurd ⟨_, _, rfl⟩ ha
      · exact absurd ⟨_, rfl⟩ hr
      · obtain ⟨u, hu, h⟩ := bind_ok h
        cases h
        exact hu

end World

end RR32
