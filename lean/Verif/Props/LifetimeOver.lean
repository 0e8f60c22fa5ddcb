import Verif.Props.Lifetime
import Verif.Props.Uninit

/-! # C89: consumers that are destroyed after their stream -/

set_option autoImplicit false

namespace RR32

theorem StreamParser.idle_quiet {p : StreamParser} (h : p.isProcessing = false) : (∀ d, p.addMessage d = .ok (p, [])) ∧ p.resetNotify = [] := by
  unfold StreamParser.isProcessing at h
  unfold StreamParser.resetNotify StreamParser.addMessage
  cases hst : p.state with
  | WAITING_FIRST_PACKET => rw [hst] at h; cases h
  | WAITING_DATA_PACKET => rw [hst] at h; cases h
  | IDLE => exact ⟨fun _ => rfl, rfl⟩
  | STREAM_DONE => exact ⟨fun _ => rfl, rfl⟩

namespace World

/-- The objects that exist and are not parsers. -/
def Others (live : Obj → Bool) (o : Obj) : Prop := live o = true ∧ ∀ n, o ≠ .parser n

theorem others_closed {live : Obj → Bool} {w : World} (h : ∀ c o, live (.consumer c) = true → w.Points (.consumer c) o → live o = true) :
    Closed (Others live) w := by
  rintro o o' ⟨h1, h2⟩ hp
  cases hp with
  | consumer n c _ => exact (h2 n rfl).elim
  | engine c e l h3 h4 => exact ⟨h c _ h1 (.engine c e l h3 h4), by intro n h; cases h⟩
  | locoEnd c e l h3 h4 => exact ⟨h c _ h1 (.locoEnd c e l h3 h4), by intro n h; cases h⟩
  | listEnd c e l h3 h4 => exact ⟨h c _ h1 (.listEnd c e l h3 h4), by intro n h; cases h⟩

/-- A parser that has been handled: it has the pointers it had, and if it was not processing, it does not process or points to nobody. -/
theorem parser_tidy {live : Obj → Bool} {w : World} (ht : Tidy live w) {n : Nat} {p : StreamParser} {cs : List ConsumerCall}
    (hp : ∀ c, p.isProcessing = true → p.has c → live (.consumer c) = true)
    (hc : ∀ x ∈ cs, live (.consumer x.consumer) = true) :
    (w.setParser n p).callConsumersL live cs = Out.lift ((w.setParser n p).callConsumers cs) ∧
    ∀ w', (w.setParser n p).callConsumers cs = .ok w' → Tidy live w' := by
  have hcons : ∀ c o, live (.consumer c) = true → (w.setParser n p).Points (.consumer c) o → live o = true := by
    intro c o hl ho
    refine ht.consumers c o hl ?_
    cases ho with
    | engine c e l h3 h4 => exact .engine c e l h3 h4
    | locoEnd c e l h3 h4 => exact .locoEnd c e l h3 h4
    | listEnd c e l h3 h4 => exact .listEnd c e l h3 h4
  refine ⟨callConsumers_agree (C := Others live) (fun _ h => h.1) (others_closed hcons) fun x hx => ⟨hc x hx, by intro n h; cases h⟩, ?_⟩
  intro w' h
  obtain ⟨h1, h2⟩ := callConsumers_quiet _ _ _ h
  refine ⟨?_, ?_, fun c o hl ho => hcons c o hl (callConsumers_fewer h _ _ ho)⟩
  · rw [h1.1]; exact ht.station
  · rw [h2]
    intro m c hl
    simp only [setParser]
    split
    · exact hp c
    · exact ht.parsers m c hl

theorem parserAdd_tidy {live : Obj → Bool} {w : World} (ht : Tidy live w) {n : Nat} (hn : live (.parser n) = true) (d : Data) :
    w.parserAddL live n d = Out.lift (w.parserAdd n d) ∧ ∀ w', w.parserAdd n d = .ok w' → Tidy live w' := by
  unfold parserAddL parserAdd
  rw [check_ok (by intro o ho; rw [List.mem_singleton] at ho; rw [ho]; exact hn), outlift_bind]
  cases hi : (w.parsers n).isProcessing with
  | false =>
    rw [(StreamParser.idle_quiet hi).1 d]
    exact parser_tidy ht (fun c h => by rw [hi] at h; cases h) (by intro x hx; cases hx)
  | true =>
    cases h : (w.parsers n).addMessage d with
    | error e => exact ⟨rfl, fun _ h => by cases h⟩
    | ok r =>
      obtain ⟨p, cs⟩ := r
      obtain ⟨h1, h2⟩ := addMessage_has h
      exact parser_tidy ht (fun c _ hc => ht.parsers n c hn hi (h1 c hc)) (fun x hx => ht.parsers n _ hn hi (h2 x hx))

theorem parserReset_tidy {live : Obj → Bool} {w : World} (ht : Tidy live w) {n : Nat} (hn : live (.parser n) = true) :
    w.parserResetL live n = Out.lift (w.parserReset n) ∧ ∀ w', w.parserReset n = .ok w' → Tidy live w' ∧ ∀ c, ¬(w'.parsers n).has c := by
  unfold parserResetL parserReset
  rw [check_ok (by intro o ho; rw [List.mem_singleton] at ho; rw [ho]; exact hn), outlift_bind]
  cases h : (w.parsers n).reset with
  | error e => exact ⟨rfl, fun _ h => by cases h⟩
  | ok r =>
    obtain ⟨p, cs⟩ := r
    obtain ⟨h1, h2⟩ := reset_has h
    have hcs : ∀ x ∈ cs, live (.consumer x.consumer) = true := by
      intro x hx
      cases hi : (w.parsers n).isProcessing with
      | false =>
        obtain ⟨q, -, h3⟩ := bind_ok h
        cases h3
        rw [(StreamParser.idle_quiet hi).2] at hx
        cases hx
      | true => exact ht.parsers n _ hn hi (h2 x hx)
    obtain ⟨k1, k2⟩ := parser_tidy ht (n := n) (p := p) (fun c _ hc => (h1 c hc).elim) hcs
    refine ⟨k1, fun w' hw => ⟨k2 w' hw, ?_⟩⟩
    intro c hc
    rw [(callConsumers_quiet _ _ _ hw).2] at hc
    simp only [setParser, ↓reduceIte] at hc
    exact h1 c hc

theorem runCall_tidy {live : Obj → Bool} {w : World} (ht : Tidy live w) {c : Call} (hc : live c.target = true)
    (hs : ∀ n, c = .cfgStart n → ∀ x, (w.parsers n).has x → live (.consumer x) = true) :
    w.runCallL live c = Out.lift (w.runCall c) ∧ ∀ w', w.runCall c = .ok w' → Tidy live w' := by
  have h1 : Out.check live [c.target] = .ok () := check_ok (by intro o ho; rw [List.mem_singleton] at ho; rw [ho]; exact hc)
  have log : ∀ (c : Call) w', (.ok (w.logAll [.call c]) : Res World) = .ok w' → Tidy live w' := by
    intro c w' h
    cases h
    refine ⟨ht.station, ht.parsers, ?_⟩
    intro c o hl ho
    exact ht.consumers c o hl (points_congr (w := w) (w' := w.logAll _) (fun _ _ h => h) rfl _ _ ho)
  cases c with
  | cfgAdd n d => exact parserAdd_tidy ht hc d
  | cfgReset n => exact ⟨(parserReset_tidy ht hc).1, fun w' h => ((parserReset_tidy ht hc).2 w' h).1⟩
  | cfgStart n =>
    refine ⟨by simp only [runCallL, h1]; rfl, ?_⟩
    intro w' h
    exact (parser_tidy ht (n := n) (p := (w.parsers n).startStream) (cs := []) (fun c _ h => hs n rfl c h) (by intro x hx; cases hx)).2 w' h
  | _ => exact ⟨by simp only [runCallL, h1]; rfl, fun w' h => log _ w' h⟩

theorem runCalls_tidy {live : Obj → Bool} (cs : List Call) : ∀ {w : World}, Tidy live w → (∀ c ∈ cs, live c.target = true) →
    (∀ n, .cfgStart n ∈ cs → ∀ x, (w.parsers n).has x → live (.consumer x) = true) →
    w.runCallsL live cs = Out.lift (w.runCalls cs) ∧ ∀ w', w.runCalls cs = .ok w' → Tidy live w' := by
  induction cs with
  | nil => intro w ht _ _; exact ⟨rfl, fun w' h => by cases h; exact ht⟩
  | cons c cs ih =>
    intro w ht hc hs
    obtain ⟨h1, h2⟩ := runCall_tidy ht (hc c (List.mem_cons_self ..)) (fun n h => hs n (h ▸ List.mem_cons_self ..))
    unfold runCallsL runCalls
    rw [List.foldlM_cons, List.foldlM_cons, h1, outlift_bind]
    cases h : w.runCall c with
    | error e => exact ⟨rfl, fun _ h => by cases h⟩
    | ok v =>
      refine ih (h2 v h) (fun c hc' => hc c (List.mem_cons_of_mem _ hc')) ?_
      intro n hn x hx
      have := runCall_fewer h _ _ (.consumer n x hx)
      cases this with
      | consumer _ _ hx => exact hs n (List.mem_cons_of_mem _ hn) x hx

theorem handle_starts (s : Station) (b : Bool) (f : CanFrame) (n : Nat) (cs : List Call) (h : s.HandlePacket b f = .ok cs) : .cfgStart n ∉ cs := by
  have one : ∀ c : Call, c ≠ .cfgStart n → ∀ cs, (.ok [c] : Res (List Call)) = .ok cs → .cfgStart n ∉ cs := by
    intro c hc cs h hn
    cases h
    rw [List.mem_singleton] at hn
    exact hc hn.symm
  have no : ∀ cs, (.ok [] : Res (List Call)) = .ok cs → .cfgStart n ∉ cs := by
    intro cs h hn
    cases h
    cases hn
  have err : ∀ (e : Fault) cs, (.error e : Res (List Call)) = .ok cs → .cfgStart n ∉ cs := by intro e cs h; cases h
  have pr : ∀ (d : Data) cs, (do let _ ← d.printed; .ok [] : Res (List Call)) = .ok cs → .cfgStart n ∉ cs := by
    intro d cs h
    obtain ⟨_, -, h⟩ := bind_ok h
    exact no cs h
  revert cs
  unfold Station.HandlePacket
  dsimp only
  unfold Station.HandleConfigDataStream Station.HandleSystemCommand Station.HandleAccessoryPacket Station.HandleLocoDirection Station.HandleLocoSpeed Station.HandleLocoFunction
  dsimp only
  repeat' split
  all_goals first
    | exact no
    | exact err _
    | exact pr _
    | exact one _ (by intro h; cases h)

theorem finish_starts (s : Station) (n : Nat) : .cfgStart n ∉ s.FinishCurrentConfigRequest.2 := by
  unfold Station.FinishCurrentConfigRequest
  split <;> simp

theorem tx_starts {s : Station} {f : CanFrame} {t : List Call} (h : s.txSend f = .ok t) (n : Nat) : .cfgStart n ∉ t :=
  fun hn => apart_txSend s f t h _ hn n rfl

theorem match_starts {p : Option Nat} {n : Nat} (h : .cfgStart n ∈ (match p with | none => [] | some cb => [Call.cfgStart cb] : List Call)) : p = some n := by
  cases p with
  | none => cases h
  | some m => rw [List.mem_singleton] at h; cases h; rfl

theorem list_starts {s s' : Station} {off : Byte} {p : Option Nat} {calls : List Call} (h : s.RequestEngineList off p = .ok (s', calls)) {n : Nat}
    (hn : .cfgStart n ∈ calls) : p = some n := by
  unfold Station.RequestEngineList at h
  have h1 := finish_starts s n
  rw [show s.AbortCurrentConfigRequest = s.FinishCurrentConfigRequest from rfl] at h
  generalize s.FinishCurrentConfigRequest = r at h h1
  obtain ⟨s1, c1⟩ := r
  dsimp only at h
  obtain ⟨m1, -, h⟩ := bind_ok h
  obtain ⟨⟨m2, k⟩, -, h⟩ := bind_ok h
  dsimp only at h
  split at h
  · obtain ⟨t1, g1, h⟩ := bind_ok h
    obtain ⟨t2, g2, h⟩ := bind_ok h
    cases h
    rw [List.mem_append, List.mem_append, List.mem_append] at hn
    rcases hn with ((hn | hn) | hn) | hn
    · exact (h1 hn).elim
    · exact match_starts hn
    · exact (tx_starts g1 n hn).elim
    · exact (tx_starts g2 n hn).elim
  · cases h
    exact (h1 hn).elim

theorem engine_starts {s s' : Station} {b : Bool} {i : ShortInfo} {p : Option Nat} {calls : List Call} (h : s.RequestEngine b i p = .ok (s', calls)) {n : Nat}
    (hn : .cfgStart n ∈ calls) : p = some n ∧ i.isNameKnown = true ∧ (s.callbacks.configData.isSome && b) = false := by
  unfold Station.RequestEngine at h
  split at h
  · cases h; cases hn
  · rename_i hk
    split at h
    · cases h; cases hn
    · rename_i hb
      refine ⟨?_, by simpa using hk, by simpa using hb⟩
      have h1 := finish_starts s n
      rw [show s.AbortCurrentConfigRequest = s.FinishCurrentConfigRequest from rfl] at h
      generalize s.FinishCurrentConfigRequest = r at h h1
      obtain ⟨s1, c1⟩ := r
      dsimp only at h
      obtain ⟨m1, -, h⟩ := bind_ok h
      obtain ⟨t1, g1, h⟩ := bind_ok h
      obtain ⟨len, -, h⟩ := bind_ok h
      obtain ⟨m2, -, h⟩ := bind_ok h
      obtain ⟨t2, g2, h⟩ := bind_ok h
      obtain ⟨d, -, h⟩ := bind_ok h
      obtain ⟨t3, g3, h⟩ := bind_ok h
      cases h
      rw [List.mem_append, List.mem_append, List.mem_append, List.mem_append] at hn
      rcases hn with (((hn | hn) | hn) | hn) | hn
      · exact (h1 hn).elim
      · exact match_starts hn
      · exact (tx_starts g1 n hn).elim
      · exact (tx_starts g2 n hn).elim
      · exact (tx_starts g3 n hn).elim

/-- A station starts only parsers given to requests; if it is the parser of the current request, the call first ends that request. -/
theorem part_starts {w : World} {op : Op} {s : Station} {calls : List Call} (h : w.stationDoes op = some (.ok (s, calls))) {n : Nat}
    (hn : .cfgStart n ∈ calls) : Starts w op n ∨ (Ends w op ∧ w.station.callbacks.configData = some n) := by
  have away : ¬Ends w op → ¬Asks w op → False := fun h1 h2 => apart_part h1 h2 h _ hn n rfl
  have fin : calls = w.station.FinishCurrentConfigRequest.2 → False := fun h => finish_starts w.station n (h ▸ hn)
  cases op with
  | begin_ u cbs => exact (fin (by injection h with h; injection h with h; exact (congrArg Prod.snd h).symm)).elim
  | finish => exact (fin (by injection h with h; injection h with h; exact (congrArg Prod.snd h).symm)).elim
  | abort => exact (fin (by injection h with h; injection h with h; exact (congrArg Prod.snd h).symm)).elim
  | notifyReceived => exact (fin (by injection h with h; injection h with h; exact (congrArg Prod.snd h).symm)).elim
  | handle f =>
    simp only [stationDoes, Option.some.injEq] at h
    cases hr : w.station.HandlePacket w.processing f with
    | error e => rw [hr] at h; cases h
    | ok cs => rw [hr] at h; cases h; exact (handle_starts _ _ _ _ _ hr hn).elim
  | requestEngineList off p =>
    simp only [stationDoes, Option.some.injEq] at h
    by_cases hc : w.station.callbacks.configData = some n
    · exact Or.inr ⟨trivial, hc⟩
    · exact Or.inl ⟨list_starts h hn, hc⟩
  | requestEngine e p =>
    simp only [stationDoes, Option.some.injEq] at h
    obtain ⟨h1, h2, h3⟩ := engine_starts h hn
    by_cases hc : w.station.callbacks.configData = some n
    · exact Or.inr ⟨⟨h2, by simpa [hc] using h3⟩, hc⟩
    · exact Or.inl ⟨h1, hc⟩
  | requestShortInfo i p =>
    simp only [stationDoes, Option.some.injEq] at h
    obtain ⟨h1, h2, h3⟩ := engine_starts h hn
    by_cases hc : w.station.callbacks.configData = some n
    · exact Or.inr ⟨⟨h2, by simpa [hc] using h3⟩, hc⟩
    · exact Or.inl ⟨h1, hc⟩
  | _ => exact (away (fun h => h) (fun h => h)).elim

theorem tidy_station {live : Obj → Bool} {w : World} (ht : Tidy live w) (s : Station) (hs : ∀ o, s.Has o → live o = true) :
    Tidy live { w with station := s } :=
  ⟨hs, ht.parsers, fun c o hl ho => ht.consumers c o hl (points_congr (w := w) (w' := { w with station := s }) (fun _ _ h => h) rfl _ _ ho)⟩

/-- C89: a parser that is not processing a stream need not point to a consumer that exists. If the application calls a function of the
library in such a state, mentions only objects that exist, and puts no such parser to work, the call uses no destroyed object, does what it
would do if nothing had been destroyed, and leaves such a state behind. -/
theorem C89_over (live : Obj → Bool) (w : World) (ht : Tidy live w) (op : Op) (hm : ∀ o, Mentions op o → live o = true)
    (hs : ∀ n, Starts w op n → ∀ c, (w.parsers n).has c → live (.consumer c) = true) :
    w.stepL live op = Out.lift (w.step op) ∧ ∀ w', w.step op = .ok w' → Tidy live w' := by
  have hu : Out.check live (w.opUses op) = .ok () := check_ok fun o ho => (opUses_has ho).elim (ht.station o) (hm o)
  cases hp : w.stationDoes op with
  | some r =>
    unfold stepL
    rw [hu, step_station hp, hp]
    cases r with
    | error e => exact ⟨rfl, fun _ h => by cases h⟩
    | ok r =>
      obtain ⟨s, calls⟩ := r
      obtain ⟨h1, h2⟩ := stationDoes_has hp
      have hs' : ∀ o, s.Has o → live o = true := fun o ho => (h2 o ho).elim (ht.station o) (hm o)
      have hc : ∀ c ∈ calls, live c.target = true := fun c hc => (h1 c hc).elim (ht.station _) (hm _)
      have ht' := tidy_station ht s hs'
      show runCallsL live { w with station := s } calls = Out.lift (runCalls { w with station := s } calls) ∧
        ∀ w', runCalls { w with station := s } calls = .ok w' → Tidy live w'
      by_cases he : Ends w op ∧ ∃ n, w.station.callbacks.configData = some n
      · obtain ⟨he, n, hn⟩ := he
        obtain ⟨r, h3, h4⟩ := ends_reset he hn
        rw [hp] at h3
        cases h3
        obtain ⟨⟨rest, rfl⟩, -⟩ := h4 s _ rfl
        have hln : live (.parser n) = true := hc (.cfgReset n) (List.mem_cons_self ..)
        obtain ⟨k1, k2⟩ := parserReset_tidy ht' hln
        unfold runCallsL runCalls
        rw [List.foldlM_cons, List.foldlM_cons, show runCallL live { w with station := s } (.cfgReset n) = _ from k1, outlift_bind]
        cases h : parserReset { w with station := s } n with
        | error e => rw [show runCall { w with station := s } (.cfgReset n) = _ from h]; exact ⟨rfl, fun _ h => by cases h⟩
        | ok v =>
          rw [show runCall { w with station := s } (.cfgReset n) = _ from h]
          obtain ⟨k3, k4⟩ := k2 v h
          refine runCalls_tidy rest k3 (fun c hc' => hc c (List.mem_cons_of_mem _ hc')) ?_
          intro m hm' x hx
          rcases part_starts hp (List.mem_cons_of_mem _ hm') with h5 | ⟨-, h5⟩
          · have := parserReset_fewer h _ _ (.consumer m x hx)
            cases this with
            | consumer _ _ hx => exact hs m h5 x hx
          · rw [hn] at h5
            cases h5
            exact (k4 x hx).elim
      · refine runCalls_tidy calls ht' hc ?_
        intro m hm' x hx
        rcases part_starts hp hm' with h5 | ⟨h5, h6⟩
        · exact hs m h5 x hx
        · exact (he ⟨h5, m, h6⟩).elim
  | none =>
    have hstep : ∀ w', w.step op = .ok w' → (∀ n, (w'.parsers n).isProcessing = true → ∀ c, (w'.parsers n).has c → live (.parser n) = true → live (.consumer c) = true) →
        Tidy live w' := by
      intro w' h hpar
      obtain ⟨h1, h2⟩ := step_points h
      refine ⟨fun o ho => (h1 o ho).elim (ht.station o) (hm o), fun n c hl hi hc => hpar n hi c hc hl, ?_⟩
      intro c o hl ho
      exact (h2 _ _ ho).elim (ht.consumers c o hl) fun h => hm _ h.2
    have same : ∀ w', w.step op = .ok w' → w'.parsers = w.parsers → Tidy live w' := by
      intro w' h h1
      refine hstep w' h ?_
      rw [h1]
      intro n hi c hc hl
      exact ht.parsers n c hl hi hc
    cases op with
    | parserAdd n d =>
      unfold stepL
      rw [hu]
      exact parserAdd_tidy ht (hm _ (.parserAdd n d)) d
    | parserReset n =>
      unfold stepL
      rw [hu]
      obtain ⟨k1, k2⟩ := parserReset_tidy ht (hm _ (.parserReset n))
      exact ⟨k1, fun w' h => (k2 w' h).1⟩
    | parserStart n c =>
      refine ⟨by unfold stepL; rw [hu]; rfl, ?_⟩
      intro w' h
      refine hstep w' h ?_
      intro m hi x hx hl
      cases h
      simp only [setParser] at hi hx
      split at hx
      · have : c = some x := by
          rcases hx with hx | hx
          · exact hx
          · exact hx
        subst this
        exact hm _ (.parserConsumer n x)
      · rename_i hmn
        rw [if_neg hmn] at hi
        exact ht.parsers m x hl hi hx
    | parserStartStream n =>
      refine ⟨by unfold stepL; rw [hu]; rfl, ?_⟩
      intro w' h
      refine hstep w' h ?_
      intro m hi x hx hl
      cases h
      simp only [setParser] at hi hx
      split at hx
      · exact hs n rfl x hx
      · rename_i hmn
        rw [if_neg hmn] at hi
        exact ht.parsers m x hl hi hx
    | setName e name =>
      refine ⟨by unfold stepL; rw [hu]; rfl, ?_⟩
      intro w' h
      refine same w' h ?_
      obtain ⟨l, -, h⟩ := bind_ok h
      cases h
      rfl
    | assignEngine e l =>
      refine ⟨by unfold stepL; rw [hu]; rfl, ?_⟩
      intro w' h
      refine same w' h ?_
      cases h
      rfl
    | setEngine c e =>
      refine ⟨by unfold stepL; rw [hu]; rfl, ?_⟩
      intro w' h
      refine same w' h ?_
      simp only [step] at h
      split at h <;> (cases h; rfl)
    | setEndCallback c e =>
      refine ⟨by unfold stepL; rw [hu]; rfl, ?_⟩
      intro w' h
      refine same w' h ?_
      simp only [step] at h
      split at h <;> (cases h; rfl)
    | setStreamOffset c e =>
      refine ⟨by unfold stepL; rw [hu]; rfl, ?_⟩
      intro w' h
      refine same w' h ?_
      simp only [step] at h
      split at h <;> (cases h; rfl)
    | clearTable c =>
      refine ⟨by unfold stepL; rw [hu]; rfl, ?_⟩
      intro w' h
      refine same w' h ?_
      simp only [step] at h
      split at h <;> (cases h; rfl)
    | resetList c =>
      refine ⟨by unfold stepL; rw [hu]; rfl, ?_⟩
      intro w' h
      refine same w' h ?_
      simp only [step] at h
      split at h <;> (cases h; rfl)
    | _ => cases hp

/-- C89: every state in which nothing points to a destroyed object is such a state. -/
theorem C89_over_weaker (live : Obj → Bool) (w : World) (h : NoDangling live w) : Tidy live w :=
  ⟨h.station, fun n c hl _ hc => h.objects _ _ hl (.consumer n c hc), fun _ o hl ho => h.objects _ o hl ho⟩

/-- C89: a whole program of this kind uses no destroyed object, and does what it would do if nothing were destroyed. -/
theorem C89_over_run (acts : List Act) : ∀ (live : Obj → Bool) (w : World), Tidy live w → Patient live w acts →
    (∀ o, runL live w acts ≠ .error (.dangling o)) ∧ (∀ f, runL live w acts = .error (.fault f) ↔ w.run (callsOf acts) = .error f) ∧
    ∀ w', w.run (callsOf acts) = .ok w' ↔ ∃ live', runL live w acts = .ok (live', w') := by
  induction acts with
  | nil =>
    intro live w _ _
    refine ⟨fun o h => (by cases h), fun f => ⟨fun h => (by cases h), fun h => (by cases h)⟩, fun w' => ⟨?_, ?_⟩⟩
    · intro h; cases h; exact ⟨live, rfl⟩
    · rintro ⟨_, h⟩; cases h; rfl
  | cons a acts ih =>
    intro live w ht hp
    cases hp with
    | call _ _ op _ hm hs hk =>
      obtain ⟨h1, h2⟩ := C89_over live w ht op hm hs
      have e1 : runL live w (.call op :: acts) = w.stepL live op >>= fun w => runL live w acts := rfl
      have e2 : w.run (callsOf (.call op :: acts)) = w.step op >>= fun w => w.run (callsOf acts) := by
        show (op :: callsOf acts).foldlM step w = _
        rw [List.foldlM_cons]
        rfl
      rw [e1, e2, h1]
      cases hr : w.step op with
      | error e =>
        refine ⟨fun o h => (by cases h), fun f => ⟨fun h => (by cases h; rfl), fun h => (by cases h; rfl)⟩, fun w' => ⟨fun h => (by cases h), ?_⟩⟩
        rintro ⟨_, h⟩; cases h
      | ok v => exact ih live v (h2 v hr) (hk v hr)
    | destroy _ _ o _ ho hs hd hk =>
      have e1 : runL live w (.destroy o :: acts) = runL (without live o) w acts := by
        show (Out.check live [o] >>= fun _ => _) = _
        rw [check_ok (by intro x hx; rw [List.mem_singleton] at hx; rw [hx]; exact ho)]
        rfl
      rw [e1]
      have keep : ∀ x, x ≠ o → live x = true → without live o x = true := by
        intro x hx hl
        simp [without, hx, hl]
      have back : ∀ x, without live o x = true → live x = true := by
        intro x hx
        simp only [without, Bool.and_eq_true] at hx
        exact hx.2
      refine ih (without live o) w ⟨?_, ?_, ?_⟩ hk
      · intro x hx
        refine keep x ?_ (ht.station x hx)
        rintro rfl
        exact hs hx
      · intro n c hl hi hc
        refine keep _ ?_ (ht.parsers n c (back _ hl) hi hc)
        rintro rfl
        obtain ⟨m, h1, h2⟩ := hd _ (back _ hl) (.consumer n c hc)
        cases h1
        rw [hi] at h2
        cases h2
      · intro c x hl hx
        refine keep x ?_ (ht.consumers c x (back _ hl) hx)
        rintro rfl
        obtain ⟨m, h1, -⟩ := hd _ (back _ hl) hx
        cases h1

/-- C89: the parser of a request is no longer processing after a stream that was received to its end or given up. -/
theorem C89_over_when (p q : StreamParser) (d : Data) (cs : List ConsumerCall) (x : ConsumerCall) (h : p.addMessage d = .ok (q, cs)) (hx : x ∈ cs)
    (ha : x.action = .complete ∨ x.action = .aborted) : q.isProcessing = false := by
  have viaReset : p.reset = .ok (q, cs) → q.isProcessing = false := by
    intro h
    obtain ⟨q', h1, h⟩ := bind_ok h
    cases h
    obtain ⟨t, -, h1⟩ := bind_ok h1
    cases h1
    rfl
  unfold StreamParser.addMessage at h
  split at h
  · cases h; cases hx
  · cases h; cases hx
  · unfold StreamParser.addFirst at h
    split at h
    · obtain ⟨crc, -, h⟩ := bind_ok h
      dsimp only at h
      split at h
      · cases h; cases hx
      · cases h; rfl
    · split at h
      · exact viaReset h
      · split at h
        · exact viaReset h
        · cases h; cases hx
  · unfold StreamParser.addData at h
    split at h
    · exact viaReset h
    · obtain ⟨crc, -, h⟩ := bind_ok h
      obtain ⟨⟨t, evs⟩, h1, h⟩ := bind_ok h
      dsimp only at h
      split at h
      · split at h
        · cases h; rfl
        · cases h; rfl
      · cases h
        obtain ⟨e, -, rfl⟩ := List.mem_map.mp hx
        rcases ha with ha | ha <;> cases ha

/-- C89: at the start of the program nothing points to anything but consumers to engines and callbacks. -/
theorem C89_start (live : Obj → Bool) (pf : Platform) (kind : Nat → Consumer) (engines : Engines)
    (h : ∀ c o, live (.consumer c) = true → (World.new pf kind engines).Points (.consumer c) o → live o = true) :
    NoDangling live (World.new pf kind engines) := by
  refine ⟨?_, ?_⟩
  · intro o ho
    cases ho with
    | tx n h => cases h
    | system n h => cases h
    | engineCbk n h => cases h
    | accessory n h => cases h
    | parser n h => cases h
  · intro o o' hl hp
    cases hp with
    | consumer n c hc => rcases hc with hc | hc <;> cases hc
    | engine c e l h3 h4 => exact h c _ hl (.engine c e l h3 h4)
    | locoEnd c e l h3 h4 => exact h c _ hl (.locoEnd c e l h3 h4)
    | listEnd c e l h3 h4 => exact h c _ hl (.listEnd c e l h3 h4)

/-! ## Engines -/

/-- C89: an engine must not be destroyed while it is being loaded: the next packet that has something to say about it uses it. -/
theorem C89_engine_gone (live : Obj → Bool) (w : World) (n e : Nat) (d : Data) (p : StreamParser) (x : ConsumerCall) (cs : List ConsumerCall) (l : LocoConsumer)
    (hn : live (.parser n) = true) (hp : (w.parsers n).addMessage d = .ok (p, x :: cs)) (hx : x.action ≠ .aborted)
    (hc : live (.consumer x.consumer) = true) (hl : w.consumers x.consumer = .loco l) (he : l.currentEngine = .obj e)
    (hd : live (.engine e) = false) : w.stepL live (.parserAdd n d) = .error (.dangling (.engine e)) := by
  have hk : ∃ t, (w.setParser n p).consumerUses x = .consumer x.consumer :: .engine e :: t := by
    unfold consumerUses
    rw [show (w.setParser n p).consumers = w.consumers from rfl, hl]
    cases ha : x.action with
    | consume s k v => simp only [he, Ptr.obj?]; exact ⟨_, rfl⟩
    | complete => simp only [he, Ptr.obj?]; exact ⟨_, rfl⟩
    | aborted => exact (hx ha).elim
  obtain ⟨t, hk⟩ := hk
  have h1 : Out.check live [.parser n] = .ok () := check_ok (by intro o ho; rw [List.mem_singleton] at ho; rw [ho]; exact hn)
  have h2 : (w.setParser n p).callConsumerL live x = .error (.dangling (.engine e)) := by
    unfold callConsumerL
    rw [hk, Out.check, if_pos hc, check_two hd]
    rfl
  show (Out.check live [.parser n] >>= fun _ => w.parserAddL live n d) = _
  unfold parserAddL
  rw [h1, hp]
  show (w.setParser n p).callConsumersL live (x :: cs) = _
  unfold callConsumersL
  rw [List.foldlM_cons, h2]
  rfl

/-- C89: but an engine can be destroyed before its download is given up. A call that ends the request, or anything else that resets the
parser, does not use it. -/
theorem C89_engine_abort (live : Obj → Bool) (w : World) (n : Nat) (hn : live (.parser n) = true)
    (hc : ∀ c, (w.parsers n).consumer = some c → live (.consumer c) = true)
    (he : ∀ c m, (w.parsers n).consumer = some c → w.Points (.consumer c) (.endCallback m) → live (.endCallback m) = true) :
    w.stepL live (.parserReset n) = Out.lift (w.step (.parserReset n)) := by
  have h1 : Out.check live [.parser n] = .ok () := check_ok (by intro o ho; rw [List.mem_singleton] at ho; rw [ho]; exact hn)
  show (Out.check live [.parser n] >>= fun _ => w.parserResetL live n) = Out.lift (w.parserReset n)
  unfold parserResetL parserReset
  rw [h1, outlift_bind]
  cases h : (w.parsers n).reset with
  | error e => rfl
  | ok r =>
    obtain ⟨p, cs⟩ := r
    obtain ⟨q, -, h⟩ := bind_ok h
    cases h
    show (w.setParser n p).callConsumersL live (w.parsers n).resetNotify = Out.lift ((w.setParser n p).callConsumers (w.parsers n).resetNotify)
    unfold StreamParser.resetNotify StreamParser.notify
    split
    · cases hcc : (w.parsers n).consumer with
      | none => rfl
      | some c =>
        have h2 : (w.setParser n p).callConsumerL live ⟨c, .aborted⟩ = Out.lift ((w.setParser n p).callConsumer ⟨c, .aborted⟩) := by
          unfold callConsumerL
          rw [check_ok]
          · rfl
          · intro o ho
            unfold consumerUses at ho
            rw [show (w.setParser n p).consumers = w.consumers from rfl] at ho
            rcases List.mem_cons.mp ho with rfl | ho
            · exact hc c hcc
            · cases hk : w.consumers c with
              | loco l =>
                simp only [hk] at ho
                obtain ⟨m, h3, rfl⟩ := obj?_mem ho
                exact he c m hcc (.locoEnd c m l hk h3)
              | list l =>
                simp only [hk] at ho
                obtain ⟨m, h3, rfl⟩ := obj?_mem ho
                exact he c m hcc (.listEnd c m l hk h3)
              | app => simp only [hk] at ho; cases ho
        unfold callConsumersL callConsumers
        rw [List.foldlM_cons, List.foldlM_cons, h2, outlift_bind]
        cases (w.setParser n p).callConsumer ⟨c, .aborted⟩ with
        | error e => rfl
        | ok v => rfl
    · rfl

/-! ## Examples -/

/-- A program with one engine consumer, one engine and one end-of-stream callback. -/
private def small : World := World.new ⟨32⟩ (fun _ => .loco LocoConsumer.construct) (fun _ => Locomotive.construct [])

/-- The consumer is set up, its stream is started. -/
private def setUp : List Act :=
  [.call (.setEngine 0 (some 0)), .call (.setEndCallback 0 (some 5)), .call (.parserStart 0 (some 0)), .call (.parserStartStream 0)]

/-- The first packet of a stream without text. -/
private def emptyStream : Data := { dlc := 6#8 }

/-- What a program ends with: how it goes wrong, or whom it told something. -/
private def outcome (r : Out ((Obj → Bool) × World)) : Except Misuse (List LogEntry) := r.map (·.2.log)

/-- The stream is over, the consumer is told, and destroyed; further packets and the reset of the parser do no harm; then the engine is
destroyed as well, and the parser serves another consumer. -/
example : (outcome (small.runL (fun _ => true) (setUp ++ [.call (.parserAdd 0 emptyStream), .destroy (.consumer 0), .call (.parserAdd 0 emptyStream),
      .call (.parserReset 0), .destroy (.engine 0), .call (.setEngine 1 none), .call (.setEndCallback 1 (some 5)), .call (.parserStart 0 (some 1)),
      .call (.parserStartStream 0), .call (.parserReset 0)]))).toOption.map List.length = some 4 := rfl

/-- The consumer is destroyed during its stream, and the parser is reset. -/
example : outcome (small.runL (fun _ => true) (setUp ++ [.destroy (.consumer 0), .call (.parserReset 0)])) = .error (.dangling (.consumer 0)) := rfl

/-- The consumer is destroyed after its stream, but the application starts the parser again. -/
example : outcome (small.runL (fun _ => true) (setUp ++ [.call (.parserAdd 0 emptyStream), .destroy (.consumer 0), .call (.parserStartStream 0),
      .call (.parserAdd 0 emptyStream)])) = .error (.dangling (.consumer 0)) := rfl

/-- The engine is destroyed during the stream, and the stream ends well. -/
example : outcome (small.runL (fun _ => true) (setUp ++ [.destroy (.engine 0), .call (.parserAdd 0 emptyStream)])) = .error (.dangling (.engine 0)) := rfl

/-- The engine is destroyed during the stream, and the stream is given up. -/
example : outcome (small.runL (fun _ => true) (setUp ++ [.destroy (.engine 0), .call (.parserReset 0)])) =
    .ok [.consumer ⟨0, .aborted⟩, .streamEnd 5 0 false .nothing] := rfl

/-- The parser of the current request is destroyed, and the request is ended. -/
example : outcome (small.runL (fun _ => true) [.call (.begin_ 1#16 { tx := some 0, configData := some 3 }), .destroy (.parser 3), .call .abort]) =
    .error (.dangling (.parser 3)) := rfl

/-- An object is destroyed twice. -/
example : outcome (small.runL (fun _ => true) [.destroy (.engine 0), .destroy (.engine 0)]) = .error (.dangling (.engine 0)) := rfl

/-- A patient program: the consumer is destroyed after its stream. -/
example : Patient (fun _ => true) small (setUp ++ [.call (.parserAdd 0 emptyStream), .destroy (.consumer 0)]) := by
  refine .call _ _ _ _ (fun _ _ => rfl) (fun _ _ _ _ => rfl) fun w' h => ?_
  cases h
  refine .call _ _ _ _ (fun _ _ => rfl) (fun _ _ _ _ => rfl) fun w' h => ?_
  cases h
  refine .call _ _ _ _ (fun _ _ => rfl) (fun _ _ _ _ => rfl) fun w' h => ?_
  cases h
  refine .call _ _ _ _ (fun _ _ => rfl) (fun _ _ _ _ => rfl) fun w' h => ?_
  cases h
  refine .call _ _ _ _ (fun _ _ => rfl) (fun _ _ _ _ => rfl) fun w' h => ?_
  cases h
  refine .destroy _ _ _ _ rfl (fun h => by cases h) ?_ (.nil _ _)
  intro o' _ hp
  cases hp with
  | consumer n c hc =>
    refine ⟨n, rfl, ?_⟩
    cases n with
    | zero => rfl
    | succ n => rcases hc with hc | hc <;> cases hc

/-- A careful program: the parser is reset before the consumer is destroyed. -/
example : Careful (fun _ => true) small (setUp ++ [.call (.parserReset 0), .destroy (.consumer 0), .destroy (.engine 0)]) := by
  refine .call _ _ _ _ (fun _ _ => rfl) fun w' h => ?_
  cases h
  refine .call _ _ _ _ (fun _ _ => rfl) fun w' h => ?_
  cases h
  refine .call _ _ _ _ (fun _ _ => rfl) fun w' h => ?_
  cases h
  refine .call _ _ _ _ (fun _ _ => rfl) fun w' h => ?_
  cases h
  refine .call _ _ _ _ (fun _ _ => rfl) fun w' h => ?_
  cases h
  refine .destroy _ _ _ _ rfl (fun h => by cases h) ?_ (.destroy _ _ _ _ rfl (fun h => by cases h) ?_ (.nil _ _))
  · intro o' _ hp
    cases hp with
    | consumer n c hc =>
      cases n with
      | zero => rcases hc with hc | hc <;> cases hc
      | succ n => rcases hc with hc | hc <;> cases hc
  · intro o' hl hp
    cases hp with
    | engine c e l h he =>
      cases c with
      | zero => cases hl
      | succ c => cases h; cases he

end World

end RR32
