import Verif.Proofs.Request

/-! # The log is only written: histories that differ in what was logged before -/

set_option autoImplicit false

namespace RR32

open Spec

/-- A map of states that every element of a fold respects is respected by the fold. -/
theorem foldlM_map {α β : Type} (f : β → α → Res β) (g : β → β) (h : ∀ b a, f (g b) a = (f b a).map g) (l : List α) (b : β) :
    l.foldlM f (g b) = (l.foldlM f b).map g := by
  induction l generalizing b with
  | nil => rfl
  | cons a l ih =>
    simp only [List.foldlM_cons, h]
    cases f b a with
    | error e => rfl
    | ok c => exact ih c

namespace World

/-- The same state with more at the front of the log. -/
def before (l : List LogEntry) (w : World) : World := { w with log := l ++ w.log }

theorem before_nil (w : World) : w.before [] = w := rfl

theorem before_logAll (l m : List LogEntry) (w : World) : (w.before l).logAll m = (w.logAll m).before l := by
  simp only [before, logAll, List.append_assoc]

theorem callConsumer_before (l : List LogEntry) (w : World) (c : ConsumerCall) : (w.before l).callConsumer c = (w.callConsumer c).map (before l) := by
  unfold callConsumer
  rw [before_logAll]
  generalize w.logAll [.consumer c] = v
  show (match v.consumers c.consumer, c.action with | _, _ => _) = _
  cases hc : v.consumers c.consumer with
  | app => simp only [before, hc]; rfl
  | loco x =>
    cases c.action with
    | consume s k t =>
      simp only [before, hc]
      cases x.consumeConfigData v.pf v.engines s k t <;> rfl
    | complete =>
      simp only [before, hc]
      cases x.setStreamComplete v.engines with
      | error => rfl
      | ok r => simp only [bind, Except.bind, Except.map, logAll, List.append_assoc]; rfl
    | aborted =>
      simp only [before, hc]
      cases x.setStreamAborted with
      | error => rfl
      | ok r => simp only [bind, Except.bind, Except.map, logAll, List.append_assoc]; rfl
  | list x =>
    cases c.action with
    | consume s k t =>
      simp only [before, hc]
      cases x.consumeConfigData v.pf s k t <;> rfl
    | complete =>
      simp only [before, hc]
      cases x.setStreamComplete with
      | error => rfl
      | ok r => simp only [bind, Except.bind, Except.map, logAll, setConsumer, List.append_assoc]; rfl
    | aborted =>
      simp only [before, hc]
      cases x.setStreamAborted with
      | error => rfl
      | ok r => simp only [bind, Except.bind, Except.map, logAll, setConsumer, List.append_assoc]; rfl

theorem callConsumers_before (l : List LogEntry) (w : World) (cs : List ConsumerCall) :
    (w.before l).callConsumers cs = (w.callConsumers cs).map (before l) :=
  foldlM_map _ _ (callConsumer_before l) cs w

theorem parserAdd_before (l : List LogEntry) (w : World) (n : Nat) (d : Data) : (w.before l).parserAdd n d = (w.parserAdd n d).map (before l) := by
  show ((w.parsers n).addMessage d).bind _ = Except.map _ (((w.parsers n).addMessage d).bind _)
  cases (w.parsers n).addMessage d with
  | error => rfl
  | ok r => exact callConsumers_before l (w.setParser n r.1) r.2

theorem parserReset_before (l : List LogEntry) (w : World) (n : Nat) : (w.before l).parserReset n = (w.parserReset n).map (before l) := by
  show ((w.parsers n).reset).bind _ = Except.map _ (((w.parsers n).reset).bind _)
  cases (w.parsers n).reset with
  | error => rfl
  | ok r => exact callConsumers_before l (w.setParser n r.1) r.2

theorem runCall_before (l : List LogEntry) (w : World) (c : Call) : (w.before l).runCall c = (w.runCall c).map (before l) := by
  cases c <;> first
    | exact parserAdd_before ..
    | exact parserReset_before ..
    | rfl
    | (simp only [runCall, before_logAll]; rfl)

theorem runCalls_before (l : List LogEntry) (w : World) (cs : List Call) : (w.before l).runCalls cs = (w.runCalls cs).map (before l) :=
  foldlM_map _ _ (runCall_before l) cs w

theorem stationCalls_before (l : List LogEntry) (w : World) (r : Res (List Call)) :
    (w.before l).stationCalls r = (w.stationCalls r).map (before l) := by
  cases r with
  | error => rfl
  | ok cs => exact runCalls_before l w cs

theorem stationUpdate_before (l : List LogEntry) (w : World) (r : Res (Station × List Call)) :
    (w.before l).stationUpdate r = (w.stationUpdate r).map (before l) := by
  cases r with
  | error => rfl
  | ok x => exact runCalls_before l { w with station := x.1 } x.2

/-- No call of the application depends on the log. -/
theorem step_before (l : List LogEntry) (w : World) (op : Op) : (w.before l).step op = (w.step op).map (before l) := by
  cases op with
  | parserStart n c => rfl
  | parserStartStream n => rfl
  | parserAdd n d => exact parserAdd_before ..
  | parserReset n => exact parserReset_before ..
  | setEngine c e =>
    show (match w.consumers c with | .loco x => _ | _ => _) = Except.map _ (match w.consumers c with | .loco x => _ | _ => _)
    cases w.consumers c <;> rfl
  | setEndCallback c e =>
    show (match w.consumers c with | .loco x => _ | .list x => _ | .app => _) = Except.map _ (match w.consumers c with | .loco x => _ | .list x => _ | .app => _)
    cases w.consumers c <;> rfl
  | setStreamOffset c e =>
    show (match w.consumers c with | .list x => _ | _ => _) = Except.map _ (match w.consumers c with | .list x => _ | _ => _)
    cases w.consumers c <;> rfl
  | clearTable c =>
    show (match w.consumers c with | .list x => _ | _ => _) = Except.map _ (match w.consumers c with | .list x => _ | _ => _)
    cases w.consumers c <;> rfl
  | resetList c =>
    show (match w.consumers c with | .list x => _ | _ => _) = Except.map _ (match w.consumers c with | .list x => _ | _ => _)
    cases w.consumers c <;> rfl
  | setName e m =>
    show ((w.engines e).setName m).bind _ = Except.map _ (((w.engines e).setName m).bind _)
    cases (w.engines e).setName m <;> rfl
  | assignEngine e x => rfl
  | _ => first
    | exact stationCalls_before ..
    | exact stationUpdate_before ..

/-- No history depends on what was logged before. -/
theorem run_before (l : List LogEntry) (w : World) (ops : List Op) : (w.before l).run ops = (w.run ops).map (before l) :=
  foldlM_map _ _ (step_before l) ops w

end World

/-! ## What a call can change at the station -/

/-- Stations that differ at most in the registered parser. -/
def Station.SameButParser (s t : Station) : Prop := ∃ p, t = { s with callbacks := { s.callbacks with configData := p } }

theorem Station.SameButParser.refl (s : Station) : s.SameButParser s := ⟨s.callbacks.configData, rfl⟩

theorem requestEngineList_same {s t : Station} {off : Byte} {p : Option Nat} {calls : List Call}
    (h : s.RequestEngineList off p = .ok (t, calls)) : s.SameButParser t := by
  unfold Station.RequestEngineList at h
  simp only [Station.AbortCurrentConfigRequest, finish_eq] at h
  obtain ⟨m1, _, h⟩ := bind_ok h
  obtain ⟨m2, _, h⟩ := bind_ok h
  split at h
  · obtain ⟨t1, _, h⟩ := bind_ok h
    obtain ⟨t2, _, h⟩ := bind_ok h
    injection h with h; injection h with h1 h2
    exact ⟨p, h1.symm⟩
  · injection h with h; injection h with h1 h2
    exact ⟨p, h1.symm⟩

theorem requestEngine_same {s t : Station} {b : Bool} {i : ShortInfo} {p : Option Nat} {calls : List Call}
    (h : s.RequestEngine b i p = .ok (t, calls)) : s.SameButParser t := by
  unfold Station.RequestEngine at h
  split at h
  · injection h with h; injection h with h1 h2; subst h1; exact .refl _
  · split at h
    · injection h with h; injection h with h1 h2; subst h1; exact .refl _
    · simp only [Station.AbortCurrentConfigRequest, finish_eq] at h
      obtain ⟨m1, _, h⟩ := bind_ok h
      obtain ⟨t1, ht1, h⟩ := bind_ok h
      obtain ⟨n, _, h⟩ := bind_ok h
      obtain ⟨m2, _, h⟩ := bind_ok h
      obtain ⟨t2, ht2, h⟩ := bind_ok h
      obtain ⟨d3, hd3, h⟩ := bind_ok h
      obtain ⟨t3, ht3, h⟩ := bind_ok h
      injection h with h; injection h with h1 h2
      exact ⟨p, h1.symm⟩

namespace World

theorem update_same {w v : World} {r : Res (Station × List Call)} (h : w.stationUpdate r = .ok v)
    (hr : ∀ t calls, r = .ok (t, calls) → w.station.SameButParser t) : w.station.SameButParser v.station := by
  obtain ⟨⟨t, calls⟩, h1, h2⟩ := bind_ok h
  rw [(runCalls_log _ _ _ h2).1]
  exact hr t calls h1

theorem calls_same {w v : World} {r : Res (List Call)} (h : w.stationCalls r = .ok v) : w.station.SameButParser v.station := by
  obtain ⟨calls, _, h2⟩ := bind_ok h
  rw [(runCalls_log _ _ _ h2).1]
  exact .refl _

/-- Only `begin` changes more of a station than the registered parser. -/
theorem step_same {w v : World} {op : Op} (hb : ∀ u cbs, op ≠ .begin_ u cbs) (h : w.step op = .ok v) : w.station.SameButParser v.station := by
  have hfin : ∀ t calls, (Except.ok w.station.FinishCurrentConfigRequest : Res (Station × List Call)) = .ok (t, calls) → w.station.SameButParser t := by
    intro t calls h
    injection h with h
    have h1 := congrArg Prod.fst h
    rw [finish_eq] at h1
    exact ⟨none, h1.symm⟩
  cases op with
  | begin_ u cbs => exact absurd rfl (hb u cbs)
  | finish => exact update_same h hfin
  | abort => exact update_same h hfin
  | notifyReceived => exact update_same h hfin
  | requestEngine e p => exact update_same h (fun _ _ h => requestEngine_same h)
  | requestShortInfo e p => exact update_same h (fun _ _ h => requestEngine_same h)
  | requestEngineList e p => exact update_same h (fun _ _ h => requestEngineList_same h)
  | parserStart n c => cases h; exact .refl _
  | parserStartStream n => cases h; exact .refl _
  | parserAdd n d => rw [(parserAdd_quiet _ _ _ _ h).1]; exact .refl _
  | parserReset n => rw [(parserReset_quiet _ _ _ h).1]; exact .refl _
  | setEngine c e => simp only [step] at h; split at h <;> cases h <;> exact .refl _
  | setEndCallback c e => simp only [step] at h; split at h <;> cases h <;> exact .refl _
  | setStreamOffset c e => simp only [step] at h; split at h <;> cases h <;> exact .refl _
  | clearTable c => simp only [step] at h; split at h <;> cases h <;> exact .refl _
  | resetList c => simp only [step] at h; split at h <;> cases h <;> exact .refl _
  | setName e m =>
    obtain ⟨l, _, h⟩ := bind_ok h
    cases h; exact .refl _
  | assignEngine e x => cases h; exact .refl _
  | _ => exact calls_same h

end World

end RR32
