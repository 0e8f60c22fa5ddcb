import Verif.Proofs.Mirror
import Verif.Props.Nested
import Verif.Props.Stream

/-!
# Callbacks that only send

Callbacks that call back can disturb what the library is doing (C59, C78, C79). Here they send commands and packets, and hand over frames that are
no configuration data, as often and as deeply nested as they like.
-/

set_option autoImplicit false

namespace RR32

namespace Spec

/-- A call that sends a command or a packet, or hands over a frame that is no part of a configuration stream (command 0x21). -/
def OnlySends : Op → Prop
  | .requestDirection _ | .sendDirection .. | .requestVelocity _ | .sendVelocity .. | .requestFunction .. | .requestAllFunctions _
  | .sendFunction .. | .sendEmergencyStop _ | .sendStop | .sendGo | .sendAccessory .. | .sendPacket _ => True
  | .handle f => f.id.raw.toNat / 2 ^ 17 % 2 ^ 8 ≠ 0x21
  | _ => False

/-- A call that sends a command or a packet. -/
def Sends : Op → Prop
  | .handle _ => False
  | op => OnlySends op

end Spec

namespace World

/-- Such a call only adds calls of the station on callbacks to the log. -/
theorem sends_over {P : Program} {k : World → Op → Run World} (hR : ∀ v u e, Over v u → ∀ v', (react P k v e).Returns v' → Over v' u)
    (v u : World) (h : Over v u) (op : Op) (hop : Spec.OnlySends op) (v' : World) (hv : (stepN P k v op).Returns v') : Over v' u := by
  have calls : ∀ (cs : List Call) (v : World), (∀ c ∈ cs, ∀ n, c ≠ .cfgStart n ∧ c ≠ .cfgReset n ∧ ∀ d, c ≠ .cfgAdd n d) → Over v u →
      (cs.foldlM (runCallN P k) v).Returns v' → Over v' u := by
    intro cs
    induction cs with
    | nil => intro v _ h hv; rw [← returns_pure.mp hv]; exact h
    | cons c cs ih =>
      intro v hc h hv
      rw [List.foldlM_cons] at hv
      obtain ⟨v1, h1, h2⟩ := returns_bind.mp hv
      refine ih v1 (fun c' hc' => hc c' (List.mem_cons_of_mem _ hc')) ?_ h2
      have hc := hc c List.mem_cons_self
      unfold runCallN at h1
      split at h1
      · exact absurd rfl (hc _).1
      · exact absurd rfl ((hc _).2.2 _)
      · exact absurd rfl (hc _).2.1
      · split at h1
        · cases h1
        · exact hR _ _ _ (h.more _) _ h1
      · exact hR _ _ _ (h.more _) _ h1
  have quiet : ∀ (r : Res (List Call)), (∀ cs, r = .ok cs → ∀ c ∈ cs, ∃ cb f, c = .tx cb f) → (runCallsN P k v r).Returns v' → Over v' u := by
    intro r hr hv
    obtain ⟨cs, h1, h2⟩ := returns_bind.mp hv
    refine calls cs v (fun c hc n => ?_) h h2
    obtain ⟨cb, f, rfl⟩ := hr cs (returns_lift.mp h1) c hc
    exact ⟨by simp, by simp, by simp⟩
  have one : ∀ (s : Station) (f : CanFrame) cs, s.txSend f = .ok cs → ∀ c ∈ cs, ∃ cb g, c = .tx cb g := by
    intro s f cs h c hc
    unfold Station.txSend at h
    split at h
    · cases h
    · cases h; rw [List.mem_singleton] at hc; exact ⟨_, _, hc⟩
  cases op with
  | handle f =>
    obtain ⟨cs, h1, h2⟩ := returns_bind.mp hv
    exact calls cs v (HandlePacket_spares _ _ f hop cs (returns_lift.mp h1)) h h2
  | requestDirection e => exact quiet _ (one _ _) hv
  | sendDirection e d =>
    refine quiet _ (fun cs h => ?_) hv
    unfold Station.SendEngineDirection at h
    split at h
    · exact one _ _ _ h
    · cases h; intro c hc; cases hc
  | requestVelocity e => exact quiet _ (one _ _) hv
  | sendVelocity e d => exact quiet _ (one _ _) hv
  | requestFunction e d => exact quiet _ (one _ _) hv
  | requestAllFunctions e => exact quiet _ (fun cs h => allFunctionsLoop_tx _ _ _ _ cs h) hv
  | sendFunction e d v => exact quiet _ (one _ _) hv
  | sendEmergencyStop e => exact quiet _ (one _ _) hv
  | sendStop => exact quiet _ (one _ _) hv
  | sendGo => exact quiet _ (one _ _) hv
  | sendAccessory a p d pw => exact quiet _ (one _ _) hv
  | sendPacket f => exact quiet _ (one _ _) hv
  | _ => cases hop

theorem react_over {P : Program} (hP : ∀ w e, ∀ op ∈ P w e, Spec.OnlySends op) (depth : Nat) (v u : World) (e : LogEntry) (h : Over v u) (v' : World)
    (hv : (react P (nested P depth) v e).Returns v') : Over v' u := by
  have fold : ∀ (k : World → Op → Run World), (∀ v u op, Over v u → Spec.OnlySends op → ∀ v', (k v op).Returns v' → Over v' u) →
      ∀ (ops : List Op) (v : World), (∀ op ∈ ops, Spec.OnlySends op) → Over v u → (ops.foldlM k v).Returns v' → Over v' u := by
    intro k hk ops
    induction ops with
    | nil => intro v _ h hv; rw [← returns_pure.mp hv]; exact h
    | cons op ops ih =>
      intro v ho h hv
      rw [List.foldlM_cons] at hv
      obtain ⟨v1, h1, h2⟩ := returns_bind.mp hv
      exact ih v1 (fun x hx => ho x (List.mem_cons_of_mem _ hx)) (hk _ _ _ h (ho _ List.mem_cons_self) _ h1) h2
  have nest : ∀ depth, ∀ v u op, Over v u → Spec.OnlySends op → ∀ v', (nested P depth v op).Returns v' → Over v' u := by
    intro depth
    induction depth with
    | zero => intro v u op _ _ v' hv; cases hv
    | succ depth ih =>
      intro v u op h hop v' hv
      refine sends_over (fun v u e h v' hv => ?_) v u h op hop v' hv
      unfold react at hv
      have := hP v e
      generalize P v e = ops at hv this
      clear e
      induction ops generalizing v with
      | nil => rw [← returns_pure.mp hv]; exact h
      | cons op ops ih2 =>
        rw [List.foldlM_cons] at hv
        obtain ⟨v1, h1, h2⟩ := returns_bind.mp hv
        exact ih2 v1 (ih _ _ _ h (this _ List.mem_cons_self) _ h1) h2 (fun x hx => this x (List.mem_cons_of_mem _ hx))
  exact fold _ (nest depth) _ v (hP v e) h hv

/-- C104. With callbacks that only send, every history that returns ends in the state in which it ends with callbacks that call nothing: the same
station, parsers, consumers and engines. In the log, calls of the station on callbacks are put in; the calls on consumers and on
end-of-stream callbacks are the same, in the same order. -/
theorem C104_only_sends (P : Program) (hP : ∀ w e, ∀ op ∈ P w e, Spec.OnlySends op) (depth : Nat) (w v : World) (ops : List Op)
    (h : (runN P depth w ops).Returns v) :
    ∃ u, w.run ops = .ok u ∧ v.station = u.station ∧ v.parsers = u.parsers ∧ v.consumers = u.consumers ∧ v.engines = u.engines ∧
      u.log.Sublist v.log ∧
      v.log.filter (fun | .call _ => false | _ => true) = u.log.filter (fun | .call _ => false | _ => true) := by
  have hm : (runN P depth w ops).Mirrors False (runN mute depth w ops) Over :=
    mirrors_foldlM ops (fun op a b hab => stepN_mirrors ⟨react_over hP depth, False.elim⟩ a b hab op) (over_refl w)
  obtain ⟨u, h1, l, rfl, h2, h3⟩ := hm.1 v h
  refine ⟨u, ((C74_silent mute (fun _ _ => rfl) depth w ops).1 u).mp h1, rfl, rfl, rfl, rfl, h2, ?_⟩
  have e : ∀ m : List LogEntry, m.filter (fun | .call _ => false | _ => true) = m.filter LogEntry.ofStream := by
    intro m
    congr 1
  rw [e, e]
  exact h3.symm

/-- C104. If moreover every callback returns, wherever it is called, then a history returns exactly if it does with callbacks that call
nothing. -/
theorem C104_returns (P : Program) (hP : ∀ w e, ∀ op ∈ P w e, Spec.OnlySends op) (depth : Nat)
    (hret : ∀ v e, ∃ v', (react P (nested P depth) v e).Returns v') (w : World) (ops : List Op) :
    (∃ v, (runN P depth w ops).Returns v) ↔ ∃ u, w.run ops = .ok u := by
  have hm : (runN P depth w ops).Mirrors True (runN mute depth w ops) Over :=
    mirrors_foldlM ops (fun op a b hab => stepN_mirrors ⟨react_over hP depth, fun _ => hret⟩ a b hab op) (over_refl w)
  constructor
  · rintro ⟨v, h⟩
    obtain ⟨u, h1, -⟩ := hm.1 v h
    exact ⟨u, ((C74_silent mute (fun _ _ => rfl) depth w ops).1 u).mp h1⟩
  · rintro ⟨u, h⟩
    obtain ⟨v, h1, -⟩ := hm.2 trivial u (((C74_silent mute (fun _ _ => rfl) depth w ops).1 u).mpr h)
    exact ⟨v, h1⟩

/-- A command that is sent returns, and leaves the station as it is, if the callback it reaches calls nothing. -/
theorem sends_returns {P : Program} {k : World → Op → Run World} (hq : ∀ w c, P w (.call c) = []) (w : World) (cb : Nat)
    (hcb : w.station.callbacks.tx = some cb) (op : Op) (hop : Spec.Sends op) : ∃ v, (stepN P k w op).Returns v ∧ v.station = w.station := by
  have calls : ∀ (cs : List Call) (w : World), w.station.callbacks.tx = some cb → (∀ c ∈ cs, ∃ cb f, c = .tx cb f) →
      ∃ v, (cs.foldlM (runCallN P k) w).Returns v ∧ v.station = w.station := by
    intro cs
    induction cs with
    | nil => intro w _ _; exact ⟨w, returns_pure.mpr rfl, rfl⟩
    | cons c cs ih =>
      intro w hw hc
      obtain ⟨cb', f, rfl⟩ := hc c List.mem_cons_self
      obtain ⟨v, h1, h2⟩ := ih (w.logAll [.call (.tx cb f)]) hw (fun c h => hc c (List.mem_cons_of_mem _ h))
      refine ⟨v, ?_, h2⟩
      rw [List.foldlM_cons]
      refine returns_bind.mpr ⟨w.logAll [.call (.tx cb f)], ?_, h1⟩
      unfold runCallN
      simp only [hw]
      unfold tell react
      rw [hq]
      exact returns_pure.mpr rfl
  have quiet : ∀ (r : Res (List Call)), (∃ cs, r = .ok cs ∧ ∀ c ∈ cs, ∃ cb f, c = .tx cb f) →
      ∃ v, (runCallsN P k w r).Returns v ∧ v.station = w.station := by
    rintro _ ⟨cs, rfl, hc⟩
    obtain ⟨v, h1, h2⟩ := calls cs w hcb hc
    exact ⟨v, returns_bind.mpr ⟨cs, returns_lift.mpr rfl, h1⟩, h2⟩
  have one : ∀ f, ∃ cs, w.station.txSend f = .ok cs ∧ ∀ c ∈ cs, ∃ cb g, c = .tx cb g := by
    intro f
    refine ⟨[.tx cb f], ?_, fun c hc => ⟨cb, f, List.mem_singleton.mp hc⟩⟩
    unfold Station.txSend
    rw [hcb]
  have loop : ∀ n f i, ∃ cs, w.station.allFunctionsLoop f n i = .ok cs := by
    intro n
    induction n with
    | zero => intro f i; exact ⟨[], rfl⟩
    | succ n ih =>
      intro f i
      obtain ⟨t, ht, -⟩ := one { f with data := { f.data with b4 := i } }
      obtain ⟨ts, hts⟩ := ih { f with data := { f.data with b4 := i } } (i + 1#8)
      refine ⟨t ++ ts, ?_⟩
      simp only [Station.allFunctionsLoop, ht, hts, bind, Except.bind]
  cases op with
  | requestDirection e => exact quiet _ (one _)
  | sendDirection e d =>
    refine quiet _ ?_
    unfold Station.SendEngineDirection
    split
    · exact one _
    · exact ⟨[], rfl, fun c hc => by cases hc⟩
  | requestVelocity e => exact quiet _ (one _)
  | sendVelocity e d => exact quiet _ (one _)
  | requestFunction e d => exact quiet _ (one _)
  | requestAllFunctions e =>
    obtain ⟨cs, hcs⟩ := loop _ _ _
    exact quiet _ ⟨cs, hcs, allFunctionsLoop_tx _ _ _ _ cs hcs⟩
  | sendFunction e d v => exact quiet _ (one _)
  | sendEmergencyStop e => exact quiet _ (one _)
  | sendStop => exact quiet _ (one _)
  | sendGo => exact quiet _ (one _)
  | sendAccessory a p d pw => exact quiet _ (one _)
  | sendPacket f => exact quiet _ (one _)
  | _ => cases hop

/-- C104. Consumers and end-of-stream callbacks may send commands and packets at any time while there is a transmit callback, if the transmit
callback and the other callbacks of the station call nothing: every history returns that returns with callbacks that call nothing, and the
state afterwards and what consumers are told are the same. -/
theorem C104_senders (P : Program) (hs : ∀ w e, ∀ op ∈ P w e, Spec.Sends op) (hq : ∀ w c, P w (.call c) = [])
    (ht : ∀ w e, w.station.callbacks.tx = none → P w e = []) (depth : Nat) (w u : World) (ops : List Op) (h : w.run ops = .ok u) :
    ∃ v, (runN P (depth + 1) w ops).Returns v ∧ v.station = u.station ∧ v.parsers = u.parsers ∧ v.consumers = u.consumers ∧
      v.engines = u.engines ∧ v.log.filter (fun | .call _ => false | _ => true) = u.log.filter (fun | .call _ => false | _ => true) := by
  have hP : ∀ w e, ∀ op ∈ P w e, Spec.OnlySends op := by
    intro w e op hop
    have := hs w e op hop
    cases op with
    | handle f => cases this
    | _ => exact this
  have fold : ∀ (cb : Nat) (os : List Op) (v : World), v.station.callbacks.tx = some cb → (∀ op ∈ os, Spec.Sends op) →
      ∃ v', (os.foldlM (nested P (depth + 1)) v).Returns v' := by
    intro cb os
    induction os with
    | nil => intro v _ _; exact ⟨v, returns_pure.mpr rfl⟩
    | cons op os ih =>
      intro v hv ho
      obtain ⟨v1, h1, h2⟩ := sends_returns (k := nested P depth) hq v cb hv op (ho op List.mem_cons_self)
      obtain ⟨v2, h3⟩ := ih v1 (by rw [h2]; exact hv) (fun x hx => ho x (List.mem_cons_of_mem _ hx))
      exact ⟨v2, by rw [List.foldlM_cons]; exact returns_bind.mpr ⟨v1, h1, h3⟩⟩
  have hret : ∀ v e, ∃ v', (react P (nested P (depth + 1)) v e).Returns v' := by
    intro v e
    cases hcb : v.station.callbacks.tx with
    | none =>
      unfold react
      rw [ht v e hcb]
      exact ⟨v, returns_pure.mpr rfl⟩
    | some cb => exact fold cb _ v hcb (hs v e)
  obtain ⟨v, hv⟩ := (C104_returns P hP (depth + 1) hret w ops).mpr ⟨u, h⟩
  obtain ⟨u', h1, h2, h3, h4, h5, -, h6⟩ := C104_only_sends P hP (depth + 1) w v ops hv
  rw [h] at h1
  injection h1 with h1
  subst h1
  exact ⟨v, hv, h2, h3, h4, h5, h6⟩

/-- Callbacks that send 'go' and 'stop' at each entry, and hand over a system stop when told that the stream was aborted. -/
def chatty : Program := fun _ e =>
  match e with
  | .consumer ⟨_, .consume ..⟩ => [.sendGo, .sendStop]
  | .consumer ⟨_, .aborted⟩ => [.handle { id := ⟨0x000301#32⟩, data := { ({} : Data).withBytes (List.replicate 9 0#8) with dlc := 5#8 } }]
  | _ => []

/-- How many calls of the station are in the log, and what else is. -/
def counted (r : Run World) : Option (Nat × Outline) :=
  match r.run with
  | some (.ok w) =>
      some ((w.log.filter (fun | .call _ => true | _ => false)).length,
        ⟨w.log.filterMap message, (w.parsers 0).state, w.station.callbacks.configData⟩)
  | _ => none

/-- The callbacks only send, and they do: the two frames of the request become eleven calls. All else is as with silent callbacks. -/
example : (∀ w e, ∀ op ∈ chatty w e, Spec.OnlySends op) ∧
    (counted (runN chatty 3 demoWorld demoOps)).map Prod.fst = some 11 ∧
    (counted (runN mute 3 demoWorld demoOps)).map Prod.fst = some 2 ∧
    outline (runN chatty 3 demoWorld demoOps) = outline (runN mute 3 demoWorld demoOps) := by
  refine ⟨?_, by decide +kernel, by decide +kernel, by decide +kernel⟩
  intro w e op h
  unfold chatty at h
  split at h
  · simp only [List.mem_cons, List.not_mem_nil, or_false] at h
    rcases h with rfl | rfl <;> trivial
  · rw [List.mem_singleton] at h
    subst h
    show _ ≠ _
    decide
  · cases h

/-- Callbacks that send at each entry and when a stream ends, if there is a transmit callback. -/
def reporting : Program := fun w e =>
  match w.station.callbacks.tx, e with
  | some _, .consumer ⟨_, .consume ..⟩ => [.sendGo]
  | some _, .streamEnd .. => [.sendStop]
  | some _, .consumer _ => [.sendPacket { id := ⟨0x000301#32⟩ }, .sendStop]
  | _, _ => []

/-- Non-vacuity of `C104_senders`. -/
example : (∀ w e, ∀ op ∈ reporting w e, Spec.Sends op) ∧ (∀ w c, reporting w (.call c) = []) ∧
    (∀ w e, w.station.callbacks.tx = none → reporting w e = []) ∧
    (counted (runN reporting 1 demoWorld demoOps)).map Prod.fst = some 8 ∧ (match demoWorld.run demoOps with | .ok _ => true | _ => false) = true := by
  refine ⟨fun w e op h => ?_, fun w c => ?_, fun w e h => ?_, by decide +kernel, by decide +kernel⟩
  · unfold reporting at h
    split at h <;> simp only [List.mem_cons, List.not_mem_nil, or_false] at h
    · subst h; trivial
    · subst h; trivial
    · rcases h with rfl | rfl <;> trivial
  · unfold reporting
    cases w.station.callbacks.tx <;> rfl
  · unfold reporting
    rw [h]

end World

end RR32
