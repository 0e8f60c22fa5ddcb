import Verif.Props.NestedOrder
import Verif.Props.History
import Verif.Proofs.Master

/-!
# Commands of several frames while callbacks call back

C84: the frames of a command or request are put on the bus in order, whatever the callbacks between them call.
-/

set_option autoImplicit false

namespace RR32

open Spec

namespace World

/-- What survives every change, and every renaming of engines in `N`, survives callbacks that rename no others. -/
theorem react_stable {P : Program} {N : Nat → Prop} {I : World → Prop} (hI : Stable (fun _ => True) N I) (hP : ∀ w e, ∀ op ∈ P w e, Naming N op)
    (depth : Nat) (u : World) (e : LogEntry) (hu : I u) : (react P (nested P depth) u e).Keeps I := by
  induction depth generalizing u e with
  | zero => exact sat_foldlM _ _ _ _ (fun op _ x _ => trivial) hu
  | succ depth ih =>
    exact sat_foldlM _ _ _ _ (fun op hop x hx => stepN_stable hI (fun w e hw => ih w e hw) x op (sparing_all op) (hP u e op hop) hx) hu

theorem name_stable (e : Nat) (name : List Byte) : Stable (fun _ => True) (· ≠ e) (fun v => (v.engines e).info.name = name) where
  log _ _ h := h
  parser _ _ _ _ h := h
  engines w es he h := by
    rcases he e with h1 | h1
    · exact h1.trans h
    · exact absurd rfl h1
  consumer _ _ _ _ _ h := h
  station _ _ _ h := h

theorem stepN_grows (P : Program) (depth : Nat) (w : World) (op : Op) (l : List LogEntry) (hw : l <+: w.log) :
    (stepN P (nested P depth) w op).Keeps (fun v => l <+: v.log) :=
  stepN_stable (log_stable l) (fun w e hw => react_grows P depth w e l hw) w op (sparing_all op) (naming_all op) hw

/-- The log has grown, and among what was added are these frames in this order. -/
def Sent (w v : World) (fs : List CanFrame) : Prop := ∃ added, v.log = w.log ++ added ∧ fs.Sublist (framesOf added)

theorem sent_nil {w v : World} (h : w.log <+: v.log) : Sent w v [] := by
  obtain ⟨l, hl⟩ := h
  exact ⟨l, hl.symm, List.nil_sublist _⟩

theorem Sent.trans {w x v : World} {fs gs : List CanFrame} (h1 : Sent w x fs) (h2 : Sent x v gs) : Sent w v (fs ++ gs) := by
  obtain ⟨a, ha, hf⟩ := h1
  obtain ⟨b, hb, hg⟩ := h2
  exact ⟨a ++ b, by rw [hb, ha, List.append_assoc], by rw [framesOf_append]; exact hf.append hg⟩

theorem tell_sent {P : Program} {depth : Nat} {w v : World} {e : LogEntry} (h : (tell P (nested P depth) w e).Returns v) : Sent w v (framesOf [e]) := by
  unfold tell at h
  obtain ⟨l, hl⟩ := keeps_returns (react_grows P depth (w.logAll [e]) e (w.log ++ [e]) (List.prefix_refl _)) h
  refine ⟨[e] ++ l, by rw [← hl, List.append_assoc], ?_⟩
  rw [framesOf_append]
  exact List.sublist_append_left ..

theorem runCallN_sent {P : Program} {depth : Nat} {w v : World} {c : Call} (h : (runCallN P (nested P depth) w c).Returns v) :
    Sent w v (framesOf [.call c]) := by
  have grow : w.log <+: v.log := keeps_returns (runCallN_stable (log_stable w.log) (fun u e hu => react_grows P depth u e _ hu) w c
    (Or.inr (Or.inl (fun _ => trivial))) (List.prefix_refl _)) h
  unfold runCallN at h
  split at h
  · exact sent_nil grow
  · exact sent_nil grow
  · exact sent_nil grow
  · split at h
    · exact absurd (returns_lift.mp h) (by simp)
    · have := tell_sent h; exact this
  · exact tell_sent h

theorem runCallsN_sent {P : Program} {depth : Nat} (cs : List Call) {w v : World} (h : (cs.foldlM (runCallN P (nested P depth)) w).Returns v) :
    Sent w v (framesOf (cs.map .call)) := by
  induction cs generalizing w with
  | nil => rw [returns_pure.mp h]; exact sent_nil (List.prefix_refl _)
  | cons c cs ih =>
    rw [List.foldlM_cons] at h
    obtain ⟨x, h1, h2⟩ := returns_bind.mp h
    exact (show framesOf ((c :: cs).map .call) = framesOf [.call c] ++ framesOf (cs.map .call) from framesOf_append [.call c] _) ▸
      (runCallN_sent h1).trans (ih h2)

theorem send8_sent {P : Program} {depth : Nat} {w v : World} {id : Identifier} {bytes : List Byte} (h : (send8 P (nested P depth) w id bytes).Returns v) :
    Sent w v [{ id := id, data := { ({} : Data).withBytes bytes with dlc := 8#8 } }] := by
  unfold send8 runCallsN at h
  obtain ⟨cs, h1, h2⟩ := returns_bind.mp h
  have h1 := returns_lift.mp h1
  unfold Station.txSend at h1
  split at h1
  · cases h1
  · cases h1; exact runCallsN_sent _ h2

theorem send8_keeps {P : Program} {N : Nat → Prop} {I : World → Prop} (hI : Stable (fun _ => True) N I) (hP : ∀ w e, ∀ op ∈ P w e, Naming N op)
    {depth : Nat} {w v : World} {id : Identifier} {bytes : List Byte} (h : (send8 P (nested P depth) w id bytes).Returns v) (hw : I w) : I v :=
  keeps_returns (send8_stable hI (fun u e hu => react_stable hI hP depth u e hu) w id bytes hw) h

/-- The calls that only send frames: commands to engines, to the system and to accessories, and raw packets. -/
def _root_.RR32.Op.isCommand : Op → Bool
  | .requestDirection _ | .sendDirection .. | .requestVelocity _ | .sendVelocity .. | .requestFunction .. | .requestAllFunctions _
  | .sendFunction .. | .sendEmergencyStop _ | .sendStop | .sendGo | .sendAccessory .. | .sendPacket _ => true
  | _ => false

/-! ## C84 -/

theorem runCalls_sends (w : World) (cs : List Call) (h : ∀ c ∈ cs, ∃ cb f, c = .tx cb f) : w.runCalls cs = .ok (w.logAll (cs.map .call)) := by
  induction cs generalizing w with
  | nil => simp [runCalls, logAll, pure, Except.pure]
  | cons c cs ih =>
    obtain ⟨cb, f, rfl⟩ := h c (List.mem_cons_self ..)
    have := ih (w.logAll [.call (.tx cb f)]) (fun c hc => h c (List.mem_cons_of_mem _ hc))
    unfold runCalls at this ⊢
    rw [List.foldlM_cons]
    show List.foldlM runCall (w.logAll [.call (.tx cb f)]) cs = _
    rw [this]
    simp [logAll]

theorem calls_sent {P : Program} {depth : Nat} {w v : World} {r : Res (List Call)} (h : (runCallsN P (nested P depth) w r).Returns v)
    (hr : ∀ cs, r = .ok cs → ∀ c ∈ cs, ∃ cb f, c = .tx cb f) : ∃ u, w.stationCalls r = .ok u ∧ Sent w v (sentSince w u) := by
  unfold runCallsN at h
  obtain ⟨cs, h1, h2⟩ := returns_bind.mp h
  have h1 := returns_lift.mp h1
  refine ⟨w.logAll (cs.map .call), ?_, ?_⟩
  · rw [h1]; exact runCalls_sends w cs (hr cs h1)
  · have := runCallsN_sent _ h2
    simpa [sentSince, logAll] using this

/-- A command runs the calls of one function of the station, all on the transmit callback. -/
theorem command_calls (w : World) (op : Op) (hop : op.isCommand = true) : ∃ r : Res (List Call), w.step op = w.stationCalls r ∧
    (∀ P k, stepN P k w op = runCallsN P k w r) ∧ ∀ cs, r = .ok cs → ∀ c ∈ cs, ∃ cb f, c = .tx cb f := by
  have one : ∀ (s : Station) (f : CanFrame) cs, s.txSend f = .ok cs → ∀ c ∈ cs, ∃ cb g, c = .tx cb g := by
    intro s f cs h c hc
    unfold Station.txSend at h
    split at h
    · cases h
    · cases h; rw [List.mem_singleton] at hc; exact ⟨_, _, hc⟩
  cases op with
  | requestDirection e => exact ⟨_, rfl, fun _ _ => rfl, one _ _⟩
  | sendDirection e d =>
    refine ⟨_, rfl, fun _ _ => rfl, fun cs h => ?_⟩
    unfold Station.SendEngineDirection at h
    split at h
    · exact one _ _ _ h
    · cases h; intro c hc; cases hc
  | requestVelocity e => exact ⟨_, rfl, fun _ _ => rfl, one _ _⟩
  | sendVelocity e d => exact ⟨_, rfl, fun _ _ => rfl, one _ _⟩
  | requestFunction e d => exact ⟨_, rfl, fun _ _ => rfl, one _ _⟩
  | requestAllFunctions e => exact ⟨_, rfl, fun _ _ => rfl, fun cs h => allFunctionsLoop_tx _ _ _ _ cs h⟩
  | sendFunction e d v => exact ⟨_, rfl, fun _ _ => rfl, one _ _⟩
  | sendEmergencyStop e => exact ⟨_, rfl, fun _ _ => rfl, one _ _⟩
  | sendStop => exact ⟨_, rfl, fun _ _ => rfl, one _ _⟩
  | sendGo => exact ⟨_, rfl, fun _ _ => rfl, one _ _⟩
  | sendAccessory a p d pw => exact ⟨_, rfl, fun _ _ => rfl, one _ _⟩
  | sendPacket f => exact ⟨_, rfl, fun _ _ => rfl, one _ _⟩
  | _ => exact absurd hop (by simp [Op.isCommand])

/-- A command: all the frames it would put on the bus by itself are put there, in that order, whatever the callbacks call in between. -/
theorem C84_command (P : Program) (depth : Nat) (w v : World) (op : Op) (hop : op.isCommand = true) (h : (stepN P (nested P depth) w op).Returns v) :
    ∃ u added, w.step op = .ok u ∧ v.log = w.log ++ added ∧ (sentSince w u).Sublist (framesOf added) := by
  obtain ⟨r, h1, h2, h3⟩ := command_calls w op hop
  rw [h2] at h
  obtain ⟨u, h4, added, h5, h6⟩ := calls_sent h h3
  exact ⟨u, added, h1.trans h4, h5, h6⟩

/-- The sender hash with which a request is made is that of the station after the previous request was ended. -/
theorem finishN_idle {P : Program} {k : World → Op → Run World} {w x : World} (h : (finishN P k w).Returns x) (hw : w.station.callbacks.configData = none) :
    x = w := by
  unfold finishN at h
  rw [hw] at h
  exact (returns_pure.mp h).symm

theorem finishN_grows {P : Program} {depth : Nat} {w x : World} (h : (finishN P (nested P depth) w).Returns x) : w.log <+: x.log :=
  keeps_returns (finishN_stable (log_stable w.log) (fun u e hu => react_grows P depth u e _ hu) (fun _ => trivial) w (List.prefix_refl _)) h

/-- The request for the engine list: two frames with the sender hash the station has once the previous request is ended. -/
theorem C84_list (P : Program) (depth : Nat) (w v : World) (offset : Byte) (p : Option Nat)
    (h : (stepN P (nested P depth) w (.requestEngineList offset p)).Returns v) :
    ∃ x f1 f2 added, (stepN P (nested P depth) w .finish).Returns x ∧ v.log = w.log ++ added ∧ [f1, f2].Sublist (framesOf added) ∧
      SentFrame f1 x.station.senderHash 0x20 8 ∧ f1.data.bytes.take 8 = str "loknamen" ∧
      SentFrame f2 x.station.senderHash 0x20 (str (toString offset.toNat ++ " 2")).length ∧
      f2.data.bytes = str (toString offset.toNat ++ " 2") ++ List.replicate (9 - (str (toString offset.toNat ++ " 2")).length) 0#8 := by
  obtain ⟨x, h1, h⟩ := returns_bind.mp h
  obtain ⟨⟨s, cs⟩, h2, h⟩ := returns_bind.mp h
  have h2 := returns_lift.mp h2
  obtain ⟨cs', h3, h⟩ := returns_bind.mp h
  cases returns_lift.mp h3
  have h4 := runCallsN_sent _ h
  cases htx : x.station.callbacks.tx with
  | none =>
    rw [requestEngineList_null x.station offset p htx] at h2
    cases h2
  | some cb =>
    obtain ⟨f1, f2, e, g1, g2, g3, g4⟩ := C20_request_engine_list x.station cb htx offset p
    rw [e] at h2
    cases h2
    obtain ⟨added, a1, a2⟩ := (sent_nil (finishN_grows h1)).trans h4
    refine ⟨x, f1, f2, added, h1, a1, List.Sublist.trans ?_ a2, g1, g2, g3, g4⟩
    rw [List.map_append, framesOf_append]
    exact List.sublist_append_right _ [f1, f2]

/-- A request for an engine, by whatever tells its name: three frames if the callbacks leave the name as it is. -/
theorem requestEngineN_sent {P : Program} {N : Nat → Prop} {I : World → Prop} (hI : Stable (fun _ => True) N I) (hP : ∀ w e, ∀ op ∈ P w e, Naming N op)
    (depth : Nat) (w v : World) (info : World → ShortInfo) (p : Option Nat) (text rest : List Byte) (hname : ∀ u, I u → (info u).name = text ++ 0#8 :: rest)
    (hn : NoNul text) (hw : I w) (hk : (info w).isNameKnown = true) (hp : w.station.callbacks.configData = none ∨ w.processing = false)
    (h : (requestEngineN P (nested P depth) w info p).Returns v) :
    ∃ x f1 f2 f3, (finishN P (nested P depth) w).Returns x ∧ Sent w v [f1, f2, f3] ∧
      SentFrame f1 x.station.senderHash 0x20 8 ∧ f1.data.bytes.take 8 = str "lokinfo" ++ [0#8] ∧
      SentFrame f2 x.station.senderHash 0x20 8 ∧ f2.data.bytes.take 8 = (paddedName text).take 8 ∧
      SentFrame f3 x.station.senderHash 0x20 8 ∧ f3.data.bytes.take 8 = (paddedName text).drop 8 := by
  have hraw : ∀ s : Station, (Identifier.mk' kRequestConfigData s.senderHash).raw.toNat = 0x20 * 2 ^ 17 + s.senderHash.toNat :=
    fun s => C01_construct _ _
  have h8 : CanDataMaxLength = 8 := rfl
  have hb : ({} : Data).bytes = List.replicate 9 0#8 := rfl
  have hbytes : ∀ m : List Byte, m.length = 9 → ({ ({} : Data).withBytes m with dlc := 8#8 } : Data).bytes = m := fun m hm => withBytes_bytes m hm {}
  have hn1 : strncpy ({} : Data).bytes kEngine Data.kDataBufferLength = .ok (str "lokinfo" ++ [0#8, 0#8]) := by decide
  have hn2 : strncpy ({} : Data).bytes (text ++ 0#8 :: rest) CanDataMaxLength =
      .ok (text.take 8 ++ List.replicate (8 - text.length) 0#8 ++ [0#8]) := by
    rw [h8, strncpy_eq _ _ text rest hn (by rw [hb]; simp), hb, List.drop_replicate]; rfl
  have hn3 : text.length > 8 → strncpy ({} : Data).bytes ((text ++ 0#8 :: rest).drop CanDataMaxLength) CanDataMaxLength =
      .ok ((text.drop 8).take 8 ++ List.replicate (8 - (text.drop 8).length) 0#8 ++ [0#8]) := by
    intro hl
    rw [h8, List.drop_append_of_le_length (by omega), strncpy_eq _ _ (text.drop 8) rest (hn.drop 8) (by rw [hb]; simp), hb, List.drop_replicate]
    rfl
  have l2 : (text.take 8 ++ List.replicate (8 - text.length) 0#8 ++ [0#8] : List Byte).length = 9 := by simp; omega
  have l3 : ((text.drop 8).take 8 ++ List.replicate (8 - (text.drop 8).length) 0#8 ++ [0#8] : List Byte).length = 9 := by
    simp; omega
  have hpad1 : (paddedName text).take 8 = text.take 8 ++ List.replicate (8 - text.length) 0#8 := by
    rw [paddedName, List.take_take, show min 8 16 = 8 from rfl, List.take_append, List.take_replicate]
    congr 2; omega
  have hpad2 : (paddedName text).drop 8 = (text.drop 8).take 8 ++ List.replicate (8 - (text.drop 8).length) 0#8 := by
    rw [paddedName, List.drop_take, List.drop_append, List.take_append, List.drop_replicate, List.take_replicate]
    congr 2
    simp only [List.length_drop]; omega
  have hcond : (w.station.callbacks.configData.isSome && w.processing) = false := by
    rcases hp with h | h
    · rw [h]; rfl
    · rw [h]; simp
  unfold requestEngineN at h
  rw [hk, hcond, if_neg (by simp), if_neg (by simp)] at h
  obtain ⟨x, hx, h⟩ := returns_bind.mp h
  have hIx : I x := keeps_returns (finishN_stable hI (fun u e hu => react_stable hI hP depth u e hu) (fun _ => trivial) w hw) hx
  have step : ∀ y : World, I y → y.log = x.log → y.station.senderHash = x.station.senderHash →
      (do
        let id := Identifier.mk' kRequestConfigData y.station.senderHash
        let mem ← Run.lift (strncpy ({} : Data).bytes kEngine Data.kDataBufferLength)
        let w ← send8 P (nested P depth) y id mem
        let engineNameLength ← Run.lift (strlen (info w).name)
        let mem ← Run.lift (strncpy ({} : Data).bytes (info w).name CanDataMaxLength)
        let w ← send8 P (nested P depth) w id mem
        let mem ← Run.lift (if engineNameLength > CanDataMaxLength then
            strncpy ({} : Data).bytes ((info w).name.drop CanDataMaxLength) CanDataMaxLength
          else .ok ({} : Data).bytes)
        send8 P (nested P depth) w id mem : Run World).Returns v → ∃ x f1 f2 f3, (finishN P (nested P depth) w).Returns x ∧ Sent w v [f1, f2, f3] ∧
      SentFrame f1 x.station.senderHash 0x20 8 ∧ f1.data.bytes.take 8 = str "lokinfo" ++ [0#8] ∧
      SentFrame f2 x.station.senderHash 0x20 8 ∧ f2.data.bytes.take 8 = (paddedName text).take 8 ∧
      SentFrame f3 x.station.senderHash 0x20 8 ∧ f3.data.bytes.take 8 = (paddedName text).drop 8 := by
    intro y hy hlog hhash h
    rw [hhash] at h
    rw [hn1] at h
    obtain ⟨m1, e1, h⟩ := returns_bind.mp h
    cases returns_lift.mp e1
    obtain ⟨a, s1, h⟩ := returns_bind.mp h
    have ha := send8_keeps hI hP s1 hy
    rw [hname a ha] at h
    obtain ⟨len, e2, h⟩ := returns_bind.mp h
    have e2 := returns_lift.mp e2
    rw [strlen_eq text rest hn] at e2
    cases e2
    obtain ⟨m2, e3, h⟩ := returns_bind.mp h
    have e3 := returns_lift.mp e3
    rw [hn2] at e3
    cases e3
    obtain ⟨b, s2, h⟩ := returns_bind.mp h
    have hb' := send8_keeps hI hP s2 ha
    obtain ⟨m3, e4, s3⟩ := returns_bind.mp h
    have e4 := returns_lift.mp e4
    have e5 : m3 = (text.drop 8).take 8 ++ List.replicate (8 - (text.drop 8).length) 0#8 ++ [0#8] := by
      rw [hname b hb'] at e4
      by_cases hl : text.length > 8
      · rw [if_pos (by rw [h8]; exact hl), hn3 hl] at e4
        cases e4; rfl
      · rw [if_neg (by rw [h8]; exact hl)] at e4
        cases e4
        have : text.drop 8 = [] := List.drop_eq_nil_of_le (by omega)
        rw [this]; decide
    subst e5
    have sent : Sent w v [_, _, _] := (sent_nil (hlog ▸ finishN_grows hx : w.log <+: y.log)).trans
      ((send8_sent s1).trans ((send8_sent s2).trans (send8_sent s3)))
    exact ⟨x, _, _, _, hx, sent, sentFrame_intro (by decide) (hraw x.station) rfl (by decide), by rw [hbytes _ (by decide)]; decide,
      sentFrame_intro (by decide) (hraw x.station) rfl (by decide), by rw [hbytes _ l2, hpad1, List.take_left' (by simp; omega)],
      sentFrame_intro (by decide) (hraw x.station) rfl (by decide), by rw [hbytes _ l3, hpad2, List.take_left' (by simp; omega)]⟩
  cases p with
  | none => exact step (x.register none) (hI.station (fun _ => trivial) _ _ hIx) rfl rfl h
  | some n => exact step ((x.register (some n)).setParser n ((x.register (some n)).parsers n).startStream) (hI.parser _ n _ trivial (hI.station (fun _ => trivial) _ _ hIx)) rfl rfl h

/-- A request by the short info the application has: three frames with that name, whatever the callbacks call in between. -/
theorem C84_short_info (P : Program) (depth : Nat) (w v : World) (i : ShortInfo) (p : Option Nat) (text rest : List Byte)
    (hname : i.name = text ++ 0#8 :: rest) (hn : NoNul text) (hk : i.isNameKnown = true)
    (hp : w.station.callbacks.configData = none ∨ w.processing = false)
    (h : (stepN P (nested P depth) w (.requestShortInfo i p)).Returns v) :
    ∃ x f1 f2 f3 added, (stepN P (nested P depth) w .finish).Returns x ∧ v.log = w.log ++ added ∧ [f1, f2, f3].Sublist (framesOf added) ∧
      SentFrame f1 x.station.senderHash 0x20 8 ∧ f1.data.bytes.take 8 = str "lokinfo" ++ [0#8] ∧
      SentFrame f2 x.station.senderHash 0x20 8 ∧ f2.data.bytes.take 8 = (paddedName text).take 8 ∧
      SentFrame f3 x.station.senderHash 0x20 8 ∧ f3.data.bytes.take 8 = (paddedName text).drop 8 := by
  have hI : Stable (fun _ => True) (fun _ => True) (fun _ : World => True) :=
    ⟨fun _ _ _ => trivial, fun _ _ _ _ _ => trivial, fun _ _ _ _ => trivial, fun _ _ _ _ _ _ => trivial, fun _ _ _ _ => trivial⟩
  obtain ⟨x, f1, f2, f3, hx, ⟨added, g1, g2⟩, g⟩ := requestEngineN_sent hI (fun _ _ op _ => naming_all op) depth w v (fun _ => i) p text rest
    (fun _ _ => hname) hn trivial hk hp h
  exact ⟨x, f1, f2, f3, added, hx, g1, g2, g⟩

/-- A request for one of the application's engines: the same, if no callback gives that engine another name. -/
theorem C84_engine (P : Program) (depth : Nat) (w v : World) (e : Nat) (p : Option Nat) (text rest : List Byte)
    (hname : (w.engines e).info.name = text ++ 0#8 :: rest) (hn : NoNul text) (hk : (w.engines e).info.isNameKnown = true)
    (hP : ∀ u l, ∀ op ∈ P u l, (∀ name, op ≠ .setName e name) ∧ (∀ value, op ≠ .assignEngine e value))
    (hp : w.station.callbacks.configData = none ∨ w.processing = false)
    (h : (stepN P (nested P depth) w (.requestEngine e p)).Returns v) :
    ∃ x f1 f2 f3 added, (stepN P (nested P depth) w .finish).Returns x ∧ v.log = w.log ++ added ∧ [f1, f2, f3].Sublist (framesOf added) ∧
      SentFrame f1 x.station.senderHash 0x20 8 ∧ f1.data.bytes.take 8 = str "lokinfo" ++ [0#8] ∧
      SentFrame f2 x.station.senderHash 0x20 8 ∧ f2.data.bytes.take 8 = (paddedName text).take 8 ∧
      SentFrame f3 x.station.senderHash 0x20 8 ∧ f3.data.bytes.take 8 = (paddedName text).drop 8 := by
  have hP' : ∀ u l, ∀ op ∈ P u l, Naming (· ≠ e) op := by
    intro u l op hop
    obtain ⟨h1, h2⟩ := hP u l op hop
    cases op with
    | setName m nm => exact fun hm => h1 nm (by rw [show m = e from hm])
    | assignEngine m x => exact fun hm => h2 x (by rw [show m = e from hm])
    | _ => exact trivial
  obtain ⟨x, f1, f2, f3, hx, ⟨added, g1, g2⟩, g⟩ := requestEngineN_sent (name_stable e _) hP' depth w v (fun w => (w.engines e).info) p text rest
    (fun _ hu => hu) hn hname hk hp h
  exact ⟨x, f1, f2, f3, added, hx, g1, g2, g⟩

/-- What was sent in a run. -/
def sentIn (w : World) (x : Run World) : Option (List CanFrame) :=
  match x.run with
  | some (.ok v) => some (sentSince w v)
  | _ => none

/-- A transmit callback that stops the system after every frame of a request. -/
def stopping : Program := fun _ e => match e with
  | .call (.tx _ f) => if commandOf f = 0x20 then [.sendStop] else []
  | _ => []

/-- `demoWorld` with engine 3 called BR 103 DB. -/
def caseNamed : World :=
  { demoWorld with engines := demoWorld.engines.set 3 { demoWorld.engines 3 with info := { availability := .NAME_KNOWN, name := lit "BR 103 DB" ++ List.replicate 23 0#8 } } }

/-- Non-vacuity: the three frames of the request are on the bus in order, each followed by a stop. -/
example : (sentIn caseNamed (stepN stopping (nested stopping 3) caseNamed (.requestEngine 3 none))).map (·.map (fun f => (commandOf f, f.data.bytes.take 8))) =
      some [(0x20, str "lokinfo" ++ [0]), (0, List.replicate 8 0), (0x20, str "BR 103 D"), (0, List.replicate 8 0), (0x20, str "B" ++ List.replicate 7 0), (0, List.replicate 8 0)] ∧
    (sentIn caseNamed (stepN stopping (nested stopping 3) caseNamed (.requestEngineList 4#8 none))).map (·.map commandOf) = some [0x20, 0, 0x20, 0] ∧
    caseNamed.station.callbacks.configData = none ∧ (caseNamed.engines 3).info.name = str "BR 103 DB" ++ 0#8 :: List.replicate 23 0#8 ∧
    (caseNamed.engines 3).info.isNameKnown = true := by
  decide +kernel

/-- A check of the state a run returns. -/
theorem returns_check {x : Run World} (p : World → Bool) (h : (match x.run with | some (.ok v) => p v | _ => false) = true) : ∃ v, x.Returns v ∧ p v = true := by
  unfold Run.Returns
  split at h
  · next v hv => exact ⟨v, hv, h⟩
  · cases h

/-- A callback that renames the engine while it is asked for. -/
def renamer : Program := fun _ e => match e with
  | .call (.tx _ f) => if f.data.bytes.take 8 = str "BR 103 D" then [.setName 3 (lit "E 94 088 DB")] else []
  | _ => []

/-- The condition of `C84_engine` is needed: if the engine is renamed while it is asked for, the request names an engine that neither has the
old name nor the new one. -/
theorem C84_renamed : ∃ w v, (stepN renamer (nested renamer 3) w (.requestEngine 3 none)).Returns v ∧
    (w.engines 3).info.name = lit "BR 103 DB" ++ List.replicate 23 0#8 ∧ (v.engines 3).info.name = lit "E 94 088 DB" ++ List.replicate 21 0#8 ∧ asked (sentSince w v) = some (.engine (str "BR 103 D DB")) := by
  obtain ⟨v, h1, h2⟩ := returns_check (x := stepN renamer (nested renamer 3) caseNamed (.requestEngine 3 none))
    (fun v => (v.engines 3).info.name = lit "E 94 088 DB" ++ List.replicate 21 0#8 ∧ asked (sentSince caseNamed v) = some (.engine (str "BR 103 D DB")))
    (by decide +kernel)
  have h2 := of_decide_eq_true h2
  exact ⟨caseNamed, v, h1, by decide, h2⟩

end World

end RR32
