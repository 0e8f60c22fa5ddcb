import Verif.Spec.Bus
import Verif.Props.Traffic
import Verif.Props.Loopback

/-! # Frames on a bus of stations -/

set_option autoImplicit false

namespace RR32

open Spec

/-! ## What a reaction depends on -/

/-- Callbacks of every kind but the registered parser. -/
def allCallbacks : Callbacks := { engine := some 0, system := some 0, accessory := some 0 }

/-- The call, on the callbacks of somebody else. -/
def redirect (cbs : Callbacks) : Call → List Call
  | .setLocoVelocity _ uid v => toward cbs.engine (.setLocoVelocity · uid v)
  | .setAllVelocity _ v => toward cbs.engine (.setAllVelocity · v)
  | .setLocoDirection _ uid d => toward cbs.engine (.setLocoDirection · uid d)
  | .changeLocoDirection _ uid => toward cbs.engine (.changeLocoDirection · uid)
  | .setLocoFunction _ uid n on => toward cbs.engine (.setLocoFunction · uid n on)
  | .setSystemState _ on r => toward cbs.system (.setSystemState · on r)
  | .onAccessoryPacket _ d r => toward cbs.accessory (.onAccessoryPacket · d r)
  | _ => []

theorem reaction_redirect (cbs : Callbacks) (f : CanFrame) :
    reaction cbs false f = (reaction allCallbacks false f).flatMap (redirect cbs) := by
  unfold reaction
  dsimp only
  repeat' split
  all_goals first | rfl | contradiction | simp [toward, allCallbacks, redirect]

/-- A frame that no station with an engine callback and without a registered parser chokes on. -/
def Plain (f : CanFrame) : Prop :=
  ∀ r : Station, r.callbacks.engine.isSome = true → r.callbacks.configData = none →
    r.HandlePacket false f = .ok (reaction r.callbacks false f)

theorem plain_of_short {f : CanFrame} (h : f.data.dlc.toNat ≤ 8) : Plain f :=
  fun r he _ => C11_decision_table r false f h he

theorem plain_of_handled {f : CanFrame} {calls : List Call} (h : ({ callbacks := allCallbacks } : Station).HandlePacket false f = .ok calls) :
    Plain f ∧ reaction allCallbacks false f = calls := by
  rw [HandlePacket_eq] at h
  split at h
  · cases h
  · split at h
    · cases h
    · next h1 h2 =>
      injection h with h
      refine ⟨?_, h⟩
      intro r he hc
      rw [HandlePacket_eq, if_neg (by rintro ⟨h, -⟩; simp [h] at he), if_neg]
      rintro ⟨h3, h4⟩
      refine h2 ⟨?_, h4⟩
      simpa [dumped, hc, allCallbacks] using h3

theorem handle_plain (w : World) (f : CanFrame) (hf : Plain f) (he : w.station.callbacks.engine.isSome = true)
    (hc : w.station.callbacks.configData = none) :
    w.step (.handle f) = .ok (w.logAll ((reaction w.station.callbacks false f).map .call)) := by
  have hp : w.processing = false := by simp only [World.processing, hc]
  show w.stationCalls (w.station.HandlePacket w.processing f) = _
  rw [hp, hf _ he hc]
  refine World.runCalls_plain w _ ?_
  intro c hm
  rw [reaction_redirect] at hm
  obtain ⟨d, -, hd⟩ := List.mem_flatMap.mp hm
  cases d <;> simp only [redirect, toward, List.mem_map] at hd <;> first | cases hd; done | (obtain ⟨m, -, rfl⟩ := hd; simp)

/-! ## What a command puts on the bus -/

/-- The command transmits these frames, and this is what they say. -/
structure Transmits (s : Station) (cb : Nat) (op : Op) (fs : List CanFrame) : Prop where
  few : fs.length ≤ 16
  step : ∀ w : World, w.station = s → w.step op = .ok (w.logAll (fs.map (fun f => .call (.tx cb f))))
  plain : ∀ f ∈ fs, Plain f
  heard : ∀ cbs, fs.flatMap (fun f => (reaction cbs false f).flatMap eventOf) = hears cbs op
  speed : ∀ i, fs.flatMap (fun f => (reaction { engine := some 0 } false f).flatMap speedOf) = asksSpeed (.call i op)

theorem transmits_calls {s : Station} {cb : Nat} {op : Op} {fs : List CanFrame} {r : Res (List Call)} (hr : r = .ok (fs.map (Call.tx cb)))
    (h : ∀ w : World, w.station = s → w.step op = w.stationCalls r) (w : World) (hw : w.station = s) :
    w.step op = .ok (w.logAll (fs.map (fun f => .call (.tx cb f)))) := by
  rw [h w hw, hr]
  show w.runCalls _ = _
  rw [World.runCalls_tx w cb _ (by intro c hc; obtain ⟨f, -, rfl⟩ := List.mem_map.mp hc; exact ⟨f, rfl⟩), List.map_map]
  rfl

theorem transmits_one {s : Station} {cb : Nat} {op : Op} {f : CanFrame} {r : Res (List Call)} {calls : List Call} (hr : r = .ok [.tx cb f])
    (h : ∀ w : World, w.station = s → w.step op = w.stationCalls r)
    (hf : ({ callbacks := allCallbacks } : Station).HandlePacket false f = .ok calls)
    (h1 : ∀ cbs, (calls.flatMap (redirect cbs)).flatMap eventOf = hears cbs op)
    (h2 : ∀ i, (calls.flatMap (redirect { engine := some 0 })).flatMap speedOf = asksSpeed (.call i op)) : Transmits s cb op [f] := by
  obtain ⟨hp, hc⟩ := plain_of_handled hf
  refine ⟨by simp, transmits_calls (by simpa using hr) h, ?_, ?_, ?_⟩
  · intro g hg
    rw [List.mem_singleton.mp hg]
    exact hp
  · intro cbs
    rw [List.flatMap_cons, List.flatMap_nil, List.append_nil, reaction_redirect, hc, h1]
  · intro i
    rw [List.flatMap_cons, List.flatMap_nil, List.append_nil, reaction_redirect, hc, h2 i]

theorem transmits_silent {s : Station} {cb : Nat} {op : Op} {fs : List CanFrame} {r : Res (List Call)} (hr : r = .ok (fs.map (Call.tx cb)))
    (h : ∀ w : World, w.station = s → w.step op = w.stationCalls r) (hn : fs.length ≤ 16)
    (hf : ∀ f ∈ fs, ({ callbacks := allCallbacks } : Station).HandlePacket false f = .ok [])
    (h1 : ∀ cbs, hears cbs op = []) (h2 : ∀ i, asksSpeed (.call i op) = []) : Transmits s cb op fs := by
  have e : ∀ cbs, ∀ f ∈ fs, reaction cbs false f = [] := by
    intro cbs f hm
    rw [reaction_redirect, (plain_of_handled (hf f hm)).2]
    rfl
  refine ⟨hn, transmits_calls hr h, fun f hm => (plain_of_handled (hf f hm)).1, ?_, ?_⟩
  · intro cbs
    rw [h1, List.flatMap_eq_nil_iff]
    intro f hm
    rw [e cbs f hm]
    rfl
  · intro i
    rw [h2, List.flatMap_eq_nil_iff]
    intro f hm
    rw [e _ f hm]
    rfl

theorem toward_events (o : Option Nat) (k : Nat → Call) (g : Nat → Event) (h : ∀ n, eventOf (k n) = [g n]) :
    (toward o k).flatMap eventOf = o.toList.map g := by
  cases o <;> simp [toward, h]

/-- Some short info, for theorems that want one. -/
private def blankInfo : ShortInfo := { availability := .EMPTY, name := [0#8] }

/-- Every command, and what it transmits. -/
theorem command_transmits (s : Station) (cb : Nat) (htx : s.callbacks.tx = some cb) (op : Op) (hop : isCommand op = true) :
    ∃ fs, Transmits s cb op fs := by
  have passive := C16_requests_passive s { callbacks := allCallbacks } false false
  cases op with
  | requestDirection e =>
    refine ⟨_, transmits_silent (fs := [_]) (r := s.RequestEngineDirection e) (by simp only [Station.RequestEngineDirection, Station.txSend, htx]; rfl)
      (by rintro w rfl; rfl) (by simp) ?_ (fun _ => rfl) (fun _ => rfl)⟩
    intro f hf
    rw [List.mem_singleton.mp hf]
    exact passive e 0#8 0#8 none blankInfo [] [] rfl (by intro b hb; cases hb) [.tx cb _]
      (Or.inl (by simp only [Station.RequestEngineDirection, Station.txSend, htx]; rfl)) cb _ (by simp)
  | requestVelocity e =>
    refine ⟨_, transmits_silent (fs := [_]) (r := s.RequestEngineVelocity e) (by simp only [Station.RequestEngineVelocity, Station.txSend, htx]; rfl)
      (by rintro w rfl; rfl) (by simp) ?_ (fun _ => rfl) (fun _ => rfl)⟩
    intro f hf
    rw [List.mem_singleton.mp hf]
    exact passive e 0#8 0#8 none blankInfo [] [] rfl (by intro b hb; cases hb) [.tx cb _]
      (Or.inr (Or.inl (by simp only [Station.RequestEngineVelocity, Station.txSend, htx]; rfl))) cb _ (by simp)
  | requestFunction e n =>
    refine ⟨_, transmits_silent (fs := [_]) (r := s.RequestEngineFunction e n) (by simp only [Station.RequestEngineFunction, Station.txSend, htx]; rfl)
      (by rintro w rfl; rfl) (by simp) ?_ (fun _ => rfl) (fun _ => rfl)⟩
    intro f hf
    rw [List.mem_singleton.mp hf]
    exact passive e n 0#8 none blankInfo [] [] rfl (by intro b hb; cases hb) [.tx cb _]
      (Or.inr (Or.inr (Or.inl (by simp only [Station.RequestEngineFunction, Station.txSend, htx]; rfl)))) cb _ (by simp)
  | requestAllFunctions e =>
    obtain ⟨frames, h1, -⟩ := C22_all_functions s cb htx e
    refine ⟨(List.range 16).map frames, transmits_silent (r := s.RequestEngineAllFunctions e) (by rw [h1, List.map_map]; rfl)
      (by rintro w rfl; rfl) (by simp) ?_ (fun _ => rfl) (fun _ => rfl)⟩
    intro f hf
    obtain ⟨k, hk, rfl⟩ := List.mem_map.mp hf
    exact passive e 0#8 0#8 none blankInfo [] [] rfl (by intro b hb; cases hb) _ (Or.inr (Or.inr (Or.inr (Or.inl h1)))) cb _
      (List.mem_map.mpr ⟨k, hk, rfl⟩)
  | sendVelocity e v =>
    obtain ⟨f, h1, h2⟩ := C18_velocity s { callbacks := allCallbacks } cb 0 htx rfl false e v
    refine ⟨[f], transmits_one h1 (by rintro w rfl; rfl) h2 ?_ ?_⟩
    · intro cbs
      simp only [List.flatMap_cons, List.flatMap_nil, List.append_nil, redirect, hears]
      refine toward_events _ _ _ (fun n => ?_)
      simp only [eventOf, BitVec.toNat_ofNat]
      rw [Nat.mod_eq_of_lt (by omega)]
    · intro i
      simp only [List.flatMap_cons, List.flatMap_nil, List.append_nil, redirect, toward, Option.toList, List.map_cons, List.map_nil, speedOf, asksSpeed,
        BitVec.toNat_ofNat]
      rw [Nat.mod_eq_of_lt (by omega)]
  | sendEmergencyStop e =>
    obtain ⟨f, h1, h2⟩ := C18_emergency_stop s { callbacks := allCallbacks } cb 0 htx rfl false e
    refine ⟨[f], transmits_one h1 (by rintro w rfl; rfl) h2 ?_ (fun i => rfl)⟩
    intro cbs
    simp only [List.flatMap_cons, List.flatMap_nil, List.append_nil, redirect, hears]
    exact toward_events _ _ _ (fun n => rfl)
  | sendDirection e d =>
    obtain ⟨g1, g2, g3⟩ := C18_direction s { callbacks := allCallbacks } cb 0 htx rfl false e d
    by_cases h : d = EngineDirection.FORWARD ∨ d = EngineDirection.REVERSE
    · obtain ⟨f, h1, h2⟩ := g1 h
      refine ⟨[f], transmits_one h1 (by rintro w rfl; rfl) h2 ?_ (fun i => rfl)⟩
      intro cbs
      simp only [List.flatMap_cons, List.flatMap_nil, List.append_nil, redirect, hears, if_pos h]
      exact toward_events _ _ _ (fun n => rfl)
    · by_cases h' : d = EngineDirection.CHANGE_DIRECTION
      · obtain ⟨f, h1, h2⟩ := g2 h'
        refine ⟨[f], transmits_one h1 (by rintro w rfl; rfl) h2 ?_ (fun i => rfl)⟩
        intro cbs
        simp only [List.flatMap_cons, List.flatMap_nil, List.append_nil, redirect, hears, if_neg h, if_pos h']
        exact toward_events _ _ _ (fun n => rfl)
      · have h1 := g3 (fun x => h (Or.inl x)) (fun x => h (Or.inr x)) h'
        refine ⟨[], transmits_silent (r := s.SendEngineDirection e d) h1 (by rintro w rfl; rfl) (by simp) (by intro f hf; cases hf) ?_ (fun i => rfl)⟩
        intro cbs
        simp only [hears, if_neg h, if_neg h']
  | sendFunction e n on =>
    obtain ⟨f, h1, h2⟩ := C18_function s { callbacks := allCallbacks } cb 0 htx rfl false e n on
    refine ⟨[f], transmits_one h1 (by rintro w rfl; rfl) h2 ?_ (fun i => rfl)⟩
    intro cbs
    simp only [List.flatMap_cons, List.flatMap_nil, List.append_nil, redirect, hears]
    exact toward_events _ _ _ (fun n => rfl)
  | sendStop =>
    obtain ⟨-, f, h1, h2⟩ := C18_system s { callbacks := allCallbacks } cb 0 htx rfl false
    refine ⟨[f], transmits_one h1 (by rintro w rfl; rfl) h2 ?_ (fun i => rfl)⟩
    intro cbs
    simp only [List.flatMap_cons, List.flatMap_nil, List.append_nil, redirect, hears]
    exact toward_events _ _ _ (fun n => rfl)
  | sendGo =>
    obtain ⟨⟨f, h1, h2⟩, -⟩ := C18_system s { callbacks := allCallbacks } cb 0 htx rfl false
    refine ⟨[f], transmits_one h1 (by rintro w rfl; rfl) h2 ?_ (fun i => rfl)⟩
    intro cbs
    simp only [List.flatMap_cons, List.flatMap_nil, List.append_nil, redirect, hears]
    exact toward_events _ _ _ (fun n => rfl)
  | sendAccessory a p d power =>
    obtain ⟨f, h1, h2, h3, h4, h5, -⟩ := C18_accessory s { callbacks := allCallbacks } cb 0 htx rfl false a p d power
    refine ⟨[f], transmits_one h1 (by rintro w rfl; rfl) h2 ?_ (fun i => rfl)⟩
    intro cbs
    simp only [List.flatMap_cons, List.flatMap_nil, List.append_nil, redirect, hears]
    refine toward_events _ _ _ (fun n => ?_)
    have e1 : (uidOf f.data).toNat = a.addr.toNat ||| accessoryStart p := by rw [← h3, ← uidOf_eq]; rfl
    have e2 : f.data.b4 = d := h4
    have e3 : decide (f.data.b5.toNat ≠ 0) = decide (power ≠ 0#8) := by
      have : f.data.b5.toNat ≠ 0 ↔ power ≠ 0#8 := by
        rw [← h5]
        simp only [TurnoutPacket.getPower]
        constructor
        · intro h; simp; intro h'; exact h (by rw [h']; rfl)
        · intro h; simp at h; intro h'; exact h (BitVec.eq_of_toNat_eq h')
      simp only [this]
    simp only [eventOf, e1, e2, e3]
  | _ => cases hop

end RR32
