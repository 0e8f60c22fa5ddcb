import Verif.Props.Abort
import Verif.Props.Uninit

/-! # C80: setting up consumers, and requests that are not made -/

set_option autoImplicit false

namespace RR32

open Spec

/-- Nothing but the consumer `c` differs. -/
structure OnlyConsumer (w v : World) (c : Nat) : Prop where
  pf : v.pf = w.pf
  station : v.station = w.station
  parsers : v.parsers = w.parsers
  engines : v.engines = w.engines
  log : v.log = w.log
  others : ∀ m, m ≠ c → v.consumers m = w.consumers m

theorem onlyConsumer_set (w : World) (c : Nat) (x : Consumer) :
    OnlyConsumer w (w.setConsumer c x) c ∧ (w.setConsumer c x).consumers c = x :=
  ⟨⟨rfl, rfl, rfl, rfl, rfl, fun m hm => by simp [World.setConsumer, hm]⟩, by simp [World.setConsumer]⟩

/-- C80: `setEngine` and `setStreamEndCallback` of an engine consumer. -/
theorem C80_engine (w : World) (c : Nat) (l : LocoConsumer) (hc : w.consumers c = .loco l) (e cb : Option Nat) :
    (∃ v l', w.step (.setEngine c e) = .ok v ∧ OnlyConsumer w v c ∧ v.consumers c = .loco l' ∧
      l'.currentEngine.read = .ok e ∧ l'.streamEndCallback = l.streamEndCallback) ∧
    (∃ v l', w.step (.setEndCallback c cb) = .ok v ∧ OnlyConsumer w v c ∧ v.consumers c = .loco l' ∧
      l'.currentEngine = l.currentEngine ∧ l'.streamEndCallback.read = .ok cb) := by
  constructor
  · simp only [World.step, hc]
    exact ⟨_, _, rfl, (onlyConsumer_set _ _ _).1, (onlyConsumer_set _ _ _).2, by cases e <;> rfl, rfl⟩
  · simp only [World.step, hc]
    exact ⟨_, _, rfl, (onlyConsumer_set _ _ _).1, (onlyConsumer_set _ _ _).2, rfl, by cases cb <;> rfl⟩

/-- C80: `setStreamEndCallback`, `setStreamOffset`, `clearTable` and `reset` of an engine list. -/
theorem C80_list (w : World) (c : Nat) (l : LocoListConsumer) (hc : w.consumers c = .list l) (cb : Option Nat) (off : Byte) :
    (∃ v l', w.step (.setEndCallback c cb) = .ok v ∧ OnlyConsumer w v c ∧ v.consumers c = .list l' ∧
      l'.streamEndCallback.read = .ok cb ∧ l'.streamOffset = l.streamOffset ∧ l'.engineInfo = l.engineInfo ∧
      l'.numEnginesKnownByMaster = l.numEnginesKnownByMaster ∧ l'.streamComplete = l.streamComplete) ∧
    (∃ v l', w.step (.setStreamOffset c off) = .ok v ∧ OnlyConsumer w v c ∧ v.consumers c = .list l' ∧
      l'.streamEndCallback = l.streamEndCallback ∧ l'.streamOffset = some off ∧ l'.engineInfo = l.engineInfo ∧
      l'.numEnginesKnownByMaster = l.numEnginesKnownByMaster ∧ l'.streamComplete = l.streamComplete) ∧
    (∃ v l', w.step (.clearTable c) = .ok v ∧ OnlyConsumer w v c ∧ v.consumers c = .list l' ∧
      l'.streamEndCallback = l.streamEndCallback ∧ l'.streamOffset = l.streamOffset ∧
      l'.engineInfo.map shown = List.replicate l.engineInfo.length none ∧
      l'.numEnginesKnownByMaster = l.numEnginesKnownByMaster ∧ l'.streamComplete = l.streamComplete) ∧
    (∃ v l', w.step (.resetList c) = .ok v ∧ OnlyConsumer w v c ∧ v.consumers c = .list l' ∧
      l'.streamEndCallback = l.streamEndCallback ∧ l'.streamOffset = some 0#8 ∧
      l'.engineInfo.map shown = List.replicate l.engineInfo.length none ∧ IsCleared l') := by
  have hempty : (l.engineInfo.map ShortInfo.reset).map shown = List.replicate l.engineInfo.length none := by
    rw [List.map_map]
    exact List.eq_replicate_iff.mpr ⟨by simp, fun b hb => by obtain ⟨j, -, rfl⟩ := List.mem_map.mp hb; rfl⟩
  refine ⟨?_, ?_, ?_, ?_⟩ <;> simp only [World.step, hc]
  · exact ⟨_, _, rfl, (onlyConsumer_set _ _ _).1, (onlyConsumer_set _ _ _).2, by cases cb <;> rfl, rfl, rfl, rfl, rfl⟩
  · exact ⟨_, _, rfl, (onlyConsumer_set _ _ _).1, (onlyConsumer_set _ _ _).2, rfl, rfl, rfl, rfl, rfl⟩
  · exact ⟨_, _, rfl, (onlyConsumer_set _ _ _).1, (onlyConsumer_set _ _ _).2, rfl, rfl, hempty, rfl, rfl⟩
  · exact ⟨_, _, rfl, (onlyConsumer_set _ _ _).1, (onlyConsumer_set _ _ _).2, rfl, rfl, hempty, reset_cleared l⟩

/-- C80: a request for an engine without a name, or while the registered parser waits for frames, changes nothing and sends nothing. -/
theorem C80_ignored (w : World) (info : ShortInfo) (p : Option Nat)
    (h : info.availability = .EMPTY ∨ ∃ n, w.station.callbacks.configData = some n ∧ (w.parsers n).isProcessing = true) :
    w.step (.requestShortInfo info p) = .ok w ∧ ∀ e, (w.engines e).info = info → w.step (.requestEngine e p) = .ok w := by
  have key : w.station.RequestEngine w.processing info p = .ok (w.station, []) := by
    unfold Station.RequestEngine
    rcases h with h | ⟨n, hn, hp⟩
    · rw [if_pos]
      simp [ShortInfo.isNameKnown, h]
    · have : w.processing = true := by unfold World.processing; rw [hn]; exact hp
      rw [this, hn]
      split <;> rfl
  constructor
  · simp only [World.step, key]; rfl
  · intro e he
    simp only [World.step, he, key]; rfl

/-- A list that shows two names. -/
def twoShown : LocoListConsumer :=
  { LocoListConsumer.construct with
    engineInfo := [⟨.NAME_KNOWN, str "V 100" ++ List.replicate 28 0#8⟩, ⟨.NAME_KNOWN, str "ICE" ++ List.replicate 30 0#8⟩] }

/-- C80 is not vacuous: a list that shows two names still does so with another offset, and does not after a reset. -/
example : twoShown.engineInfo.map shown = [some (str "V 100"), some (str "ICE")] ∧
    ∃ v l', (World.new ⟨32⟩ (fun _ => .list twoShown) (fun _ => Locomotive.construct [])).step (.setStreamOffset 3 7#8) = .ok v ∧
      v.consumers 3 = .list l' ∧ l'.streamOffset = some 7#8 ∧ l'.engineInfo.map shown = [some (str "V 100"), some (str "ICE")] := by
  refine ⟨by decide +kernel, ?_⟩
  obtain ⟨v, l', h1, -, h3, -, h5, h6, -⟩ := (C80_list (World.new ⟨32⟩ (fun _ => .list twoShown) (fun _ => Locomotive.construct [])) 3
    twoShown rfl none 7#8).2.1
  exact ⟨v, l', h1, h3, h5, by rw [h6]; decide +kernel⟩

end RR32
