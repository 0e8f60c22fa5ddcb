import Verif.Props.History
import Verif.Proofs.NestedFrame

/-!
# What is transmitted if callbacks call the station back

C17 says of histories without nested calls that every transmitted frame carries the hash of the latest `begin` and goes to the transmit
callback given there. With callbacks that call back a frame is made at one time and handed over at another: between the packets of a request,
callbacks run.
-/

set_option autoImplicit false

namespace RR32

namespace Spec

/-- The hash that belongs to a UUID (lib/RR32Can/util/utils.h:12-17). -/
def hashOf (uuid : U16) : Nat := uuid.toNat / 2 ^ 11 * 2 ^ 8 + uuid.toNat % 2 ^ 7

end Spec

namespace World

/-- A property of programs that survives calls on consumers, changes of parsers, registering a parser, log entries, and those frames in `G` that go
to the transmit callback of the station. Calls in `A` make only frames in `G`. -/
structure Faithful (A : Op → Prop) (G : CanFrame → Prop) (I : World → Prop) : Prop extends Held I where
  call : ∀ w (c : Call), (∀ cb f, c ≠ .tx cb f) → I w → I (w.logAll [.call c])
  tx : ∀ w cb f, w.station.callbacks.tx = some cb → G f → I w → I (w.logAll [.call (.tx cb f)])
  register : ∀ w p, I w → I (w.register p)
  begins : ∀ w uuid cbs, A (.begin_ uuid cbs) → I w →
    I { w with station := { callbacks := cbs, senderHash := computeSenderHash (uuid.zeroExtend 32) } }
  own : ∀ w v op, op.isOwn = true → A op → w.step op = .ok v → I w → I v
  frames : ∀ w op cb f, A op → I w → w.station.callbacks.tx = some cb → Spec.TxFrame op w.station.senderHash.toNat f → G f

section
variable {A : Op → Prop} {G : CanFrame → Prop} {I : World → Prop} (hI : Faithful A G I)
variable {P : Program} {k : World → Op → Run World} (hR : ∀ w e, I w → (react P k w e).Keeps I)
include hI hR

theorem runCallN_faithful (w : World) (c : Call) (hc : ∀ cb f, c = .tx cb f → G f) (hw : I w) : (runCallN P k w c).Keeps I := by
  unfold runCallN
  split
  · exact sat_pure (hI.parser _ _ _ hw)
  · exact parserAddN_steady hI.toHeld hR w _ hw
  · exact parserResetN_steady hI.toHeld hR w hw
  · split
    · exact trivial
    · next h => exact hR _ _ (hI.tx _ _ _ h (hc _ _ rfl) hw)
  · next h => exact hR _ _ (hI.call _ _ (fun cb f he => h _ _ he) hw)

theorem runCallsN_faithful (w : World) (r : Res (List Call)) (hr : ∀ calls, r = .ok calls → ∀ cb f, Call.tx cb f ∈ calls → G f) (hw : I w) :
    (runCallsN P k w r).Keeps I := by
  unfold runCallsN
  refine sat_bind (keeps_lift (Q := fun cs => r = .ok cs) (fun _ h => h)) (fun cs hcs => ?_)
  exact sat_foldlM _ _ _ _ (fun c hc u hu => runCallN_faithful hI hR u c (fun cb f he => hr _ hcs cb f (he ▸ hc)) hu) hw

theorem finishN_faithful (w : World) (hw : I w) :
    (finishN P k w).Keeps (fun v => I v ∧ v.station.callbacks.configData = none) := by
  unfold finishN
  split
  · next h => exact sat_pure ⟨hw, h⟩
  · exact sat_bind (parserResetN_steady hI.toHeld hR w hw) (fun v hv => sat_pure ⟨hI.register _ _ hv, rfl⟩)

/-- The packets of a request for an engine: the station has a transmit callback when the first is sent, so the hash they all carry is good. -/
theorem requestEngineN_faithful (op : Op) (hop : A op) (hsp : ∀ g, op ≠ .sendPacket g) (w : World) (info : World → ShortInfo) (p : Option Nat)
    (hw : I w) : (requestEngineN P k w info p).Keeps I := by
  have any : ∀ {α : Type} (r : Res α), (Run.lift r).Keeps (fun _ => True) := fun r => keeps_lift (fun _ _ => trivial)
  have good : ∀ (u : World) (cb : Nat), I u → u.station.callbacks.tx = some cb → ∀ bytes,
      G { id := Identifier.mk' kRequestConfigData u.station.senderHash, data := { ({} : Data).withBytes bytes with dlc := 8#8 } } := by
    intro u cb hu ht bytes
    refine hI.frames u op cb _ hop hu ht ?_
    have hraw : (Identifier.mk' kRequestConfigData u.station.senderHash).raw.toNat = 0x20 * 2 ^ 17 + u.station.senderHash.toNat :=
      C01_construct _ _
    have := (sentFrame_intro (f := { id := Identifier.mk' kRequestConfigData u.station.senderHash, data := { ({} : Data).withBytes bytes with dlc := 8#8 } })
      (command := 0x20) (dlc := 8) (by decide) hraw rfl (by decide)).wellFormed
    unfold Spec.TxFrame
    split
    · exact absurd rfl (hsp _)
    · exact this
  have send : ∀ (u v : World) (bytes : List Byte), I v →
      (v.station.callbacks.tx ≠ none → G { id := Identifier.mk' kRequestConfigData u.station.senderHash, data := { ({} : Data).withBytes bytes with dlc := 8#8 } }) →
      (send8 P k v (Identifier.mk' kRequestConfigData u.station.senderHash) bytes).Keeps I := by
    intro u v bytes hv hg
    refine runCallsN_faithful hI hR v _ (fun calls hc cb f hm => ?_) hv
    unfold Station.txSend at hc
    cases ht : v.station.callbacks.tx with
    | none => rw [ht] at hc; cases hc
    | some cb' =>
      rw [ht] at hc
      injection hc with hc
      subst hc
      injection List.mem_singleton.mp hm with _ h2
      subst h2
      exact hg (by rw [ht]; simp)
  -- the three packets, from the program in which the identifier is made
  have rest : ∀ (u : World), I u → (do
      let mem ← Run.lift (strncpy ({} : Data).bytes kEngine Data.kDataBufferLength)
      let w ← send8 P k u (Identifier.mk' kRequestConfigData u.station.senderHash) mem
      let engineNameLength ← Run.lift (strlen (info w).name)
      let mem ← Run.lift (strncpy ({} : Data).bytes (info w).name CanDataMaxLength)
      let w ← send8 P k w (Identifier.mk' kRequestConfigData u.station.senderHash) mem
      let mem ← Run.lift (if engineNameLength > CanDataMaxLength then
          strncpy ({} : Data).bytes ((info w).name.drop CanDataMaxLength) CanDataMaxLength
        else .ok ({} : Data).bytes)
      send8 P k w (Identifier.mk' kRequestConfigData u.station.senderHash) mem : Run World).Keeps I := by
    intro u hu
    refine sat_bind (any _) (fun mem _ => ?_)
    cases ht : u.station.callbacks.tx with
    | none =>
      have : send8 P k u (Identifier.mk' kRequestConfigData u.station.senderHash) mem = Run.lift (.error .nullDeref) := by
        unfold send8 runCallsN Station.txSend
        rw [ht]
        rfl
      rw [this]
      exact trivial
    | some cb =>
      have g := good u cb hu ht
      refine sat_bind (send u u _ hu (fun _ => g _)) (fun v hv => ?_)
      refine sat_bind (any _) (fun _ _ => ?_)
      refine sat_bind (any _) (fun _ _ => ?_)
      refine sat_bind (send u v _ hv (fun _ => g _)) (fun v hv => ?_)
      refine sat_bind (any _) (fun _ _ => ?_)
      exact send u v _ hv (fun _ => g _)
  unfold requestEngineN
  split
  · exact sat_pure hw
  · split
    · exact sat_pure hw
    · refine sat_bind (finishN_faithful hI hR w hw) (fun v hv => ?_)
      have h1 : I (v.register p) := hI.register _ _ hv.1
      cases p with
      | none => exact rest _ h1
      | some n => exact rest _ (hI.parser _ n _ h1)

/-- A call keeps the property if the callbacks do. -/
theorem stepN_faithful (w : World) (op : Op) (hop : A op) (hw : I w) : (stepN P k w op).Keeps I := by
  have quiet : ∀ (r : Res (List Call)), (∀ calls, r = .ok calls → TxOk w.station (Spec.TxFrame op w.station.senderHash.toNat) calls) →
      (runCallsN P k w r).Keeps I :=
    fun r hr => runCallsN_faithful hI hR w r (fun calls hc cb f hm => hI.frames w op cb f hop hw (hr calls hc cb f hm).1 (hr calls hc cb f hm).2) hw
  have own : op.isOwn = true → (Run.lift (w.step op)).Keeps I := fun h => keeps_lift (fun v hv => hI.own w v op h hop hv hw)
  have one : ∀ (f : CanFrame) (n : Nat) (c : Byte), f.id = Identifier.mk' c w.station.senderHash → f.data.dlc.toNat = n → n ≤ 8 →
      ∀ calls, w.station.txSend f = .ok calls → TxOk w.station (fun f => f.id.getPriority.toNat = 0 ∧ f.id.isResponse = false ∧
        f.id.getHash.toNat = w.station.senderHash.toNat ∧ f.data.dlc.toNat ≤ 8 ∧ f.id.raw.toNat < 2 ^ 29) calls := by
    intro f n c hi hd hn calls hc
    refine txSend_ok hc rfl (sentFrame_intro c.isLt ?_ hd hn).wellFormed
    rw [hi]; exact C01_construct _ _
  have sp : ∀ (f : CanFrame) (c n : Nat), BuiltFrame f c false n → ∀ calls, w.station.SendPacket f = .ok calls →
      TxOk w.station (fun f => f.id.getPriority.toNat = 0 ∧ f.id.isResponse = false ∧
        f.id.getHash.toNat = w.station.senderHash.toNat ∧ f.data.dlc.toNat ≤ 8 ∧ f.id.raw.toNat < 2 ^ 29) calls :=
    fun f c n hb calls hc => txSend_ok hc rfl (setHash_built hb w.station.senderHash).wellFormed
  have fin := sat_mono (finishN_faithful hI hR w hw) (fun _ h => h.1)
  cases op with
  | begin_ uuid cbs =>
    refine sat_bind (finishN_faithful hI hR w hw) ?_
    rintro v ⟨hv, hc⟩
    have : v.step (.begin_ uuid cbs) = .ok { v with station := { callbacks := cbs, senderHash := computeSenderHash (uuid.zeroExtend 32) } } := by
      simp only [step, stationUpdate, Station.begin_, Station.AbortCurrentConfigRequest, Station.FinishCurrentConfigRequest, hc, bind, Except.bind]
      rfl
    rw [this]
    exact hI.begins _ _ _ hop hv
  | requestEngineList off p =>
    refine sat_bind (finishN_faithful hI hR w hw) (fun v hv => ?_)
    refine sat_bind (keeps_lift (Q := fun x => v.station.RequestEngineList off p = .ok x) (fun _ h => h)) (fun x hx => ?_)
    obtain ⟨s, cs⟩ := x
    obtain ⟨-, h2⟩ := requestEngineList_tx _ _ _ _ _ hx
    have hs : { v with station := s } = v.register p := by
      have htx : v.station.callbacks.tx = none ∨ ∃ cb, v.station.callbacks.tx = some cb := by cases v.station.callbacks.tx <;> simp
      rcases htx with htx | ⟨cb, htx⟩
      · rw [requestEngineList_null _ off p htx] at hx; cases hx
      · obtain ⟨f1, f2, h2, -⟩ := C20_request_engine_list v.station cb htx off p
        rw [hx] at h2
        injection h2 with h2
        injection h2 with ha hb
        rw [ha]
        rfl
    show (runCallsN P k { v with station := s } (.ok cs)).Keeps I
    rw [hs]
    refine runCallsN_faithful hI hR _ _ (fun calls hc cb f hm => ?_) (hI.register _ _ hv.1)
    injection hc with hc
    subst hc
    obtain ⟨h3, _, _, h4⟩ := h2 cb f hm
    exact hI.frames v _ cb f hop hv.1 h3 h4.wellFormed
  | requestEngine e p => exact requestEngineN_faithful hI hR (.requestEngine e p) hop (fun _ h => nomatch h) w (fun w => (w.engines e).info) p hw
  | requestShortInfo i p => exact requestEngineN_faithful hI hR (.requestShortInfo i p) hop (fun _ h => nomatch h) w (fun _ => i) p hw
  | finish => exact fin
  | abort => exact fin
  | notifyReceived => exact fin
  | handle f =>
    exact quiet _ (fun calls hc cb g hm => absurd rfl ((C14_no_tx w.station w.processing f calls hc _ hm).1 cb g))
  | parserAdd n d => exact parserAddN_steady hI.toHeld hR w d hw
  | parserReset n => exact parserResetN_steady hI.toHeld hR w hw
  | requestDirection e => exact quiet _ (one _ 4 kLocoDirection rfl rfl (by decide))
  | sendDirection e d =>
    refine quiet _ (fun calls hc => ?_)
    unfold Station.SendEngineDirection at hc
    split at hc
    · exact sp _ _ _ (C10_loco false e.uid 0#16 d 0#8 false).2.1.1 calls hc
    · injection hc with hc; subst hc; exact TxOk.nil _ _
  | requestVelocity e => exact quiet _ (one _ 4 kLocoSpeed rfl rfl (by decide))
  | sendVelocity e v => exact quiet _ (sp _ _ _ (C10_loco false e.uid v 0#32 0#8 false).1.1)
  | requestFunction e f => exact quiet _ (one _ 5 kLocoFunction rfl rfl (by decide))
  | requestAllFunctions e =>
    refine quiet _ (fun calls hc => ?_)
    cases htx : w.station.callbacks.tx with
    | none => simp [Station.RequestEngineAllFunctions, Station.allFunctionsLoop, Station.txSend, htx, bind, Except.bind] at hc
    | some cb =>
      obtain ⟨frames, hall, hfr⟩ := C22_all_functions w.station cb htx e
      rw [hall] at hc
      injection hc with hc
      subst hc
      intro cb' f hm
      obtain ⟨k, hk, heq⟩ := List.mem_map.mp hm
      injection heq with h1 h2
      subst h1 h2
      exact ⟨htx, (hfr k (List.mem_range.mp hk)).2.1.wellFormed⟩
  | sendFunction e f v => exact quiet _ (sp _ _ _ (C10_loco false e.uid 0#16 0#32 f v).2.2.1)
  | sendEmergencyStop e => exact quiet _ (one _ 5 kSystemCommand rfl rfl (by decide))
  | sendStop => exact quiet _ (one _ 5 kSystemCommand rfl rfl (by decide))
  | sendGo => exact quiet _ (one _ 5 kSystemCommand rfl rfl (by decide))
  | sendAccessory a p d pw => exact quiet _ (one _ 6 kAccessorySwitch rfl rfl (by decide))
  | sendPacket f =>
    refine quiet _ (fun calls hc => txSend_ok hc rfl ⟨rfl, ?_, ?_⟩)
    · show (f.id.setHash w.station.senderHash).raw.toNat / _ = _
      rw [(C01_setters f.id w.station.senderHash 0#8 false).1]
      have := w.station.senderHash.isLt
      omega
    · show (f.id.setHash w.station.senderHash).raw.toNat % _ = _
      rw [(C01_setters f.id w.station.senderHash 0#8 false).1]
      have := w.station.senderHash.isLt
      omega
  | parserStart n c => exact hI.parser _ _ _ hw
  | parserStartStream n => exact hI.parser _ _ _ hw
  | setEngine c e => exact own rfl
  | setEndCallback c e => exact own rfl
  | setStreamOffset c e => exact own rfl
  | clearTable c => exact own rfl
  | resetList c => exact own rfl
  | setName e nm => exact own rfl
  | assignEngine e v => exact own rfl

end

theorem react_faithful {A : Op → Prop} {G : CanFrame → Prop} {I : World → Prop} (hI : Faithful A G I) {P : Program}
    (hP : ∀ w e, ∀ op ∈ P w e, A op) (depth : Nat) (u : World) (e : LogEntry) (hu : I u) : (react P (nested P depth) u e).Keeps I := by
  induction depth generalizing u e with
  | zero => exact sat_foldlM _ _ _ _ (fun op _ x _ => trivial) hu
  | succ depth ih =>
    exact sat_foldlM _ _ _ _ (fun op hop x hx => stepN_faithful hI (fun w e hw => ih w e hw) x op (hP u e op hop) hx) hu

/-- The application's own changes of its objects leave station and log alone. -/
theorem own_station {w v : World} {op : Op} (ho : op.isOwn = true) (h : w.step op = .ok v) : v.station = w.station ∧ v.log = w.log := by
  cases op <;> try cases ho
  case setEngine c e => simp only [step] at h; split at h <;> injection h with h <;> subst h <;> exact ⟨rfl, rfl⟩
  case setEndCallback c e => simp only [step] at h; split at h <;> injection h with h <;> subst h <;> exact ⟨rfl, rfl⟩
  case setStreamOffset c e => simp only [step] at h; split at h <;> injection h with h <;> subst h <;> exact ⟨rfl, rfl⟩
  case clearTable c => simp only [step] at h; split at h <;> injection h with h <;> subst h <;> exact ⟨rfl, rfl⟩
  case resetList c => simp only [step] at h; split at h <;> injection h with h <;> subst h <;> exact ⟨rfl, rfl⟩
  case setName e n => obtain ⟨l, _, h⟩ := bind_ok h; injection h with h; subst h; exact ⟨rfl, rfl⟩
  case assignEngine e l => injection h with h; subst h; exact ⟨rfl, rfl⟩

/-- Properties of the station and of what was transmitted since `w0`: it need only be checked what `begin` does and that good frames are good
for the callback they are given to. -/
theorem faithful_of (w0 : World) (A : Op → Prop) (G : CanFrame → Prop) (S : U16 → Option Nat → Prop) (T : Nat → CanFrame → Prop)
    (hb : ∀ uuid cbs, A (.begin_ uuid cbs) → S (computeSenderHash (uuid.zeroExtend 32)) cbs.tx)
    (hg : ∀ op h cb f, A op → S h (some cb) → Spec.TxFrame op h.toNat f → G f)
    (ht : ∀ h cb f, S h (some cb) → G f → T cb f) :
    Faithful A G (fun w => S w.station.senderHash w.station.callbacks.tx ∧ NewTx w0 w T) where
  consumer w v c h hw := by
    obtain ⟨-, hs, -, -, l, hl, hn⟩ := callConsumer_log w v c h
    obtain ⟨h1, new, h2, h3⟩ := hw
    refine ⟨by rw [hs]; exact h1, new ++ [.consumer c] ++ l, by rw [hl, h2]; simp, ?_⟩
    intro cb f hm
    simp only [List.mem_append, List.mem_singleton] at hm
    rcases hm with (hm | hm) | hm
    · exact h3 cb f hm
    · cases hm
    · rcases hn with hn | ⟨_, _, _, _, _, hn⟩
      · rw [hn] at hm; cases hm
      · rw [hn] at hm; cases List.mem_singleton.mp hm
  parser w n p hw := hw
  call w c hc hw := by
    obtain ⟨h1, new, h2, h3⟩ := hw
    refine ⟨h1, new ++ [.call c], by show w.log ++ _ = _; rw [h2]; simp, ?_⟩
    intro cb f hm
    rcases List.mem_append.mp hm with hm | hm
    · exact h3 cb f hm
    · injection List.mem_singleton.mp hm with he
      exact absurd he.symm (hc cb f)
  tx w cb f htx hf hw := by
    obtain ⟨h1, new, h2, h3⟩ := hw
    refine ⟨h1, new ++ [.call (.tx cb f)], by show w.log ++ _ = _; rw [h2]; simp, ?_⟩
    intro cb' f' hm
    rcases List.mem_append.mp hm with hm | hm
    · exact h3 cb' f' hm
    · injection List.mem_singleton.mp hm with he
      injection he with e1 e2
      subst e1 e2
      exact ht _ _ _ (htx ▸ h1) hf
  register w p hw := hw
  begins w uuid cbs ha hw := ⟨hb uuid cbs ha, hw.2⟩
  own w v op ho _ h hw := by
    obtain ⟨e1, e2⟩ := own_station ho h
    obtain ⟨h1, new, h2, h3⟩ := hw
    exact ⟨by rw [e1]; exact h1, new, by rw [e2, h2], h3⟩
  frames w op cb f ha hw htx hf := hg op _ cb f ha (htx ▸ hw.1) hf

theorem newTx_refl (w : World) (T : Nat → CanFrame → Prop) : NewTx w w T := ⟨[], by simp, fun _ _ h => by cases h⟩

/-- The hash that `begin` computes. -/
theorem begin_hash (uuid : U16) : (computeSenderHash (uuid.zeroExtend 32)).toNat = Spec.hashOf uuid :=
  (C04_begin {} uuid {}).1

/-- With callbacks that call anything but `begin`, however deep: every frame transmitted by the next call of the program or by a callback during it
carries the hash of the latest `begin` of the program, goes to the transmit callback given there, and is well-formed. -/
theorem C103_transmissions (P : Program) (hP : ∀ w e uuid cbs, Op.begin_ uuid cbs ∉ P w e) (depth : Nat) (w0 w w' : World) (h0 : w0.station = {})
    (ops : List Op) (op : Op) (h : (runN P depth w0 ops).Returns w) (hs : (stepN P (nested P depth) w op).Returns w') :
    ∃ new, w'.log = w.log ++ new ∧ ∀ cb f, LogEntry.call (.tx cb f) ∈ new →
      ∃ uuid cbs, Spec.lastBegin ops = some (uuid, cbs) ∧ cbs.tx = some cb ∧
        ∃ op', (op' = op ∨ ∃ v e, op' ∈ P v e) ∧ Spec.TxFrame op' (Spec.hashOf uuid) f := by
  -- one call that is no `begin`, and one that is
  have keep : ∀ (w w' : World) (op : Op), (stepN P (nested P depth) w op).Returns w' →
      (match op with
        | .begin_ uuid cbs => w'.station.senderHash.toNat = Spec.hashOf uuid ∧ w'.station.callbacks.tx = cbs.tx
        | _ => w'.station.SameTx w.station) ∧
      NewTx w w' (fun cb f => w.station.callbacks.tx = some cb ∧
        ∃ op', (op' = op ∨ ∃ v e, op' ∈ P v e) ∧ Spec.TxFrame op' w.station.senderHash.toNat f) := by
    intro w w' op hs
    have hI := faithful_of w (fun op' => (op' = op ∨ ∃ v e, op' ∈ P v e) ∧ ∀ u c, op' ≠ .begin_ u c)
      (fun f => ∃ op', (op' = op ∨ ∃ v e, op' ∈ P v e) ∧ Spec.TxFrame op' w.station.senderHash.toNat f)
      (fun h t => h = w.station.senderHash ∧ t = w.station.callbacks.tx)
      (fun cb f => w.station.callbacks.tx = some cb ∧ ∃ op', (op' = op ∨ ∃ v e, op' ∈ P v e) ∧ Spec.TxFrame op' w.station.senderHash.toNat f)
      (fun u c hb => absurd rfl (hb.2 u c))
      (fun op' h cb f ha hS hf => ⟨op', ha.1, hS.1 ▸ hf⟩)
      (fun h cb f hS hf => ⟨hS.2.symm, hf⟩)
    have hA : ∀ v e, ∀ op' ∈ P v e, (op' = op ∨ ∃ v e, op' ∈ P v e) ∧ ∀ u c, op' ≠ .begin_ u c :=
      fun v e op' ho => ⟨.inr ⟨v, e, ho⟩, fun u c he => hP v e u c (he ▸ ho)⟩
    by_cases hb : ∃ u c, op = .begin_ u c
    · obtain ⟨uuid, cbs, rfl⟩ := hb
      obtain ⟨v, h1, h2⟩ := returns_bind.mp hs
      obtain ⟨hv, hc⟩ := keeps_returns (finishN_faithful hI (react_faithful hI hA depth) w ⟨⟨rfl, rfl⟩, newTx_refl w _⟩) h1
      have : v.step (.begin_ uuid cbs) = .ok { v with station := { callbacks := cbs, senderHash := computeSenderHash (uuid.zeroExtend 32) } } := by
        simp only [step, stationUpdate, Station.begin_, Station.AbortCurrentConfigRequest, Station.FinishCurrentConfigRequest, hc, bind, Except.bind]
        rfl
      have h2 := returns_lift.mp h2
      rw [this] at h2
      injection h2 with h2
      subst h2
      exact ⟨⟨begin_hash uuid, rfl⟩, hv.2⟩
    · have hn : ∀ u c, op ≠ .begin_ u c := fun u c he => hb ⟨u, c, he⟩
      have := keeps_returns (stepN_faithful hI (react_faithful hI hA depth) w op ⟨.inl rfl, hn⟩ ⟨⟨rfl, rfl⟩, newTx_refl w _⟩) hs
      refine ⟨?_, this.2⟩
      have hsame : w'.station.SameTx w.station := ⟨this.1.1, this.1.2⟩
      split
      · exact absurd rfl (hn _ _)
      · exact hsame
  have key : ∀ (ops : List Op) (w0 : World) (b : Option (U16 × Callbacks)),
      (match b with
        | none => w0.station.callbacks.tx = none
        | some (u, c) => w0.station.senderHash.toNat = Spec.hashOf u ∧ w0.station.callbacks.tx = c.tx) →
      ∀ w, (runN P depth w0 ops).Returns w →
      (match (Spec.lastBegin ops).or b with
        | none => w.station.callbacks.tx = none
        | some (u, c) => w.station.senderHash.toNat = Spec.hashOf u ∧ w.station.callbacks.tx = c.tx) := by
    intro ops
    induction ops with
    | nil =>
      intro w0 b hb w h
      have := returns_pure.mp h
      subst this
      exact hb
    | cons op ops ih =>
      intro w0 b hb w h
      simp only [runN, List.foldlM_cons] at h
      obtain ⟨w1, h1, h2⟩ := returns_bind.mp h
      have hst := (keep w0 w1 op h1).1
      have := ih w1 ((Spec.beginOf op).or b) (by
        cases op with
        | begin_ u c => exact hst
        | _ =>
          simp only [Spec.beginOf, Option.none_or]
          obtain ⟨e1, e2⟩ := hst
          cases b with
          | none => exact e2.trans hb
          | some x => exact ⟨by rw [e1]; exact hb.1, e2.trans hb.2⟩) w h2
      have e : (Spec.lastBegin (op :: ops)).or b = (Spec.lastBegin ops).or ((Spec.beginOf op).or b) := by
        simp only [Spec.lastBegin, Option.or_assoc]
      rw [e]
      exact this
  have hk := key ops w0 none (by rw [h0]) w h
  rw [Option.or_none] at hk
  obtain ⟨new, hnew, hall⟩ := (keep w w' op hs).2
  refine ⟨new, hnew, fun cb f hm => ?_⟩
  obtain ⟨htx, op', ho, hf⟩ := hall cb f hm
  cases hl : Spec.lastBegin ops with
  | none => rw [hl] at hk; rw [hk] at htx; cases htx
  | some x =>
    obtain ⟨u, c⟩ := x
    rw [hl] at hk
    exact ⟨u, c, rfl, hk.2 ▸ htx, op', ho, hk.1 ▸ hf⟩

/-- With callbacks that call anything, `begin` too: every frame ever transmitted is well-formed, carries the hash of a `begin` that was called, and goes
to the transmit callback of a `begin` that was called. These may be two different ones. -/
theorem C103_any (P : Program) (A : Op → Prop) (hP : ∀ w e, ∀ op ∈ P w e, A op) (depth : Nat) (w0 w : World) (h0 : w0.station = {})
    (ops : List Op) (hops : ∀ op ∈ ops, A op) (h : (runN P depth w0 ops).Returns w) :
    ∃ new, w.log = w0.log ++ new ∧ ∀ cb f, LogEntry.call (.tx cb f) ∈ new →
      (∃ uuid cbs, A (.begin_ uuid cbs) ∧ cbs.tx = some cb) ∧
      ∃ op uuid cbs, A op ∧ A (.begin_ uuid cbs) ∧ cbs.tx ≠ none ∧ Spec.TxFrame op (Spec.hashOf uuid) f := by
  have hI := faithful_of w0 A
    (fun f => ∃ op uuid cbs, A op ∧ A (.begin_ uuid cbs) ∧ cbs.tx ≠ none ∧ Spec.TxFrame op (Spec.hashOf uuid) f)
    (fun h t => ∀ cb, t = some cb → ∃ uuid cbs, A (.begin_ uuid cbs) ∧ h.toNat = Spec.hashOf uuid ∧ cbs.tx = some cb)
    (fun cb f => (∃ uuid cbs, A (.begin_ uuid cbs) ∧ cbs.tx = some cb) ∧
      ∃ op uuid cbs, A op ∧ A (.begin_ uuid cbs) ∧ cbs.tx ≠ none ∧ Spec.TxFrame op (Spec.hashOf uuid) f)
    (fun u c hb cb hc => ⟨u, c, hb, begin_hash u, hc⟩)
    (fun op h cb f ha hS hf => by
      obtain ⟨u, c, h1, h2, h3⟩ := hS cb rfl
      exact ⟨op, u, c, ha, h1, by rw [h3]; simp, h2 ▸ hf⟩)
    (fun h cb f hS hf => by
      obtain ⟨u, c, h1, h2, h3⟩ := hS cb rfl
      exact ⟨⟨u, c, h1, h3⟩, hf⟩)
  exact (keeps_returns (sat_foldlM _ _ _ _ (fun op hop _ hx => stepN_faithful hI (react_faithful hI hP depth) _ op (hops op hop) hx)
    ⟨fun cb hc => (by rw [h0] at hc; cases hc), newTx_refl w0 _⟩) h).2

/-- A transmit callback 1 that, given the first packet of a request for an engine list, calls `begin` with another UUID and transmit callback 2. -/
def turncoat : Program := fun _ e =>
  match e with
  | .call (.tx 1 _) => [.begin_ 0x3000#16 { tx := some 2 }]
  | _ => []

/-- A transmit callback that answers a packet with a packet of its own while little has happened. -/
def parrot : Program := fun w e =>
  match e with
  | .call (.tx _ _) => if w.log.length < 3 then [.sendGo] else []
  | _ => []

/-- A program in which nothing has happened yet. -/
def untouched : Res World := do
  let t ← TextParser.construct (List.replicate 31 0xAA#8) (List.replicate 11 0xAA#8) (List.replicate 11 0xAA#8) (List.replicate 26 0xAA#8)
  pure
    { pf := ⟨64⟩, station := {}, parsers := fun _ => StreamParser.construct t, consumers := fun _ => .app,
      engines := fun _ => Locomotive.construct (List.replicate 9 0xAA#8), log := [] }

/-- The transmissions in a log: the callback and the hash. -/
def txHashes (log : List LogEntry) : List (Nat × Nat) := log.filterMap (fun e =>
  match e with
  | .call (.tx cb f) => some (cb, f.id.getHash.toNat)
  | _ => none)

/-- The transmissions of a history. -/
def txOf (P : Program) (ops : List Op) : Option (List (Nat × Nat)) :=
  match untouched with
  | .error _ => none
  | .ok w => match (runN P 4 w ops).run with
    | some (.ok u) => some (txHashes u.log)
    | _ => none

/-- The second packet of the request goes to the new callback with the hash of the old UUID. So it cannot be asked in `C103_any` that callback and
hash are those of one `begin`. -/
theorem C103_two_begins : txOf turncoat [.begin_ 0x1800#16 { tx := some 1 }, .requestEngineList 0#8 none] =
    some [(1, Spec.hashOf 0x1800#16), (2, Spec.hashOf 0x1800#16)] ∧ Spec.hashOf 0x1800#16 ≠ Spec.hashOf 0x3000#16 := by
  decide +kernel

/-- Non-vacuity of `C103_transmissions`: a callback that answers packets with packets. -/
example : (∀ w e uuid cbs, Op.begin_ uuid cbs ∉ parrot w e) ∧
    txOf parrot [.begin_ 0x1800#16 { tx := some 1 }, .sendStop] = some [(1, 0x300), (1, 0x300), (1, 0x300)] ∧ Spec.hashOf 0x1800#16 = 0x300 := by
  refine ⟨?_, by decide +kernel, by decide⟩
  intro w e uuid cbs h
  unfold parrot at h
  split at h
  · split at h
    · cases List.mem_singleton.mp h
    · cases h
  · cases h

end World

end RR32
