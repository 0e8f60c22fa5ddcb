import Verif.Props.NestedSend

/-!
# What callbacks see and what their calls are

C85: a callback is told something exactly when it has just happened, by the station, parser or consumer it is registered with, and what it
calls is a history of calls like that of a main program. Also C59 and C74 for callbacks of every kind.
-/

set_option autoImplicit false

namespace RR32

open Spec

namespace World

/-- The callback told `e` runs in state `w`: `e` is the last thing that happened, a frame was given to the transmit callback the station has,
a consumer that is told something is one of the application, and the end of a stream is told to the callback its consumer has. -/
def Called (w : World) (e : LogEntry) : Prop :=
  w.log.getLast? = some e ∧
    match e with
    | .call (.tx cb _) => w.station.callbacks.tx = some cb
    | .call (.cfgStart _) | .call (.cfgReset _) | .call (.cfgAdd _ _) => False
    | .call _ => True
    | .consumer c => w.consumers c.consumer = .app
    | .streamEnd cb c _ _ => (w.consumers c).callback = .obj cb

section
variable {P Q : Program} {k k' : World → Op → Run World} (hR : ∀ w e, Called w e → react P k w e = react Q k' w e)
include hR

theorem callConsumerN_congr : callConsumerN P k = callConsumerN Q k' := by
  funext w c
  unfold callConsumerN
  cases h : w.callConsumer c with
  | error e => rfl
  | ok v =>
    show ((v.log.drop w.log.length).filter w.reachesApp).foldlM (react P k) v = ((v.log.drop w.log.length).filter w.reachesApp).foldlM (react Q k') v
    by_cases ha : w.consumers c.consumer = .app
    · have hv : v = w.logAll [.consumer c] := by
        unfold callConsumer at h
        simp only [logAll, ha] at h
        cases h
        rfl
      subst hv
      have : (((w.logAll [.consumer c]).log.drop w.log.length).filter w.reachesApp) = [.consumer c] := by
        simp [logAll, reachesApp, ha]
      rw [this, List.foldlM_cons, List.foldlM_cons, hR _ _ ⟨by simp [logAll], ha⟩]
      rfl
    · obtain ⟨-, -, -, h4, l, h5, h6⟩ := callConsumer_log w v c h
      have hf : ((v.log.drop w.log.length).filter w.reachesApp) = l := by
        rw [drop_log h5, List.filter_cons_of_neg (by simp [reachesApp, ha])]
        rcases h6 with rfl | ⟨cb, b, seen, -, -, rfl⟩ <;> rfl
      rw [hf]
      rcases h6 with rfl | ⟨cb, b, seen, g1, -, rfl⟩
      · rfl
      · rw [List.foldlM_cons, List.foldlM_cons, hR _ _ ⟨by rw [h5]; simp, by dsimp only; rw [h4]; exact g1⟩]
        rfl

theorem tellEvents_congr : tellEvents P k = tellEvents Q k' := by
  funext w evs
  unfold tellEvents
  rw [callConsumerN_congr hR]

theorem tellConsumers_congr : tellConsumers P k = tellConsumers Q k' := by
  funext w evs
  unfold tellConsumers
  rw [callConsumerN_congr hR]

theorem processStepN_congr : processStepN P k = processStepN Q k' := by
  have hf : findTokenN P k = findTokenN Q k' := by
    funext w n o cs d
    unfold findTokenN
    rw [tellEvents_congr hR]
  funext w n c
  unfold processStepN
  rw [tellEvents_congr hR, hf]

theorem processLoopN_congr : processLoopN P k = processLoopN Q k' := by
  funext fuel
  induction fuel with
  | zero => rfl
  | succ fuel ih =>
    funext w n c
    unfold processLoopN
    rw [processStepN_congr hR, ih]

theorem reportParseErrorN_congr : reportParseErrorN P k = reportParseErrorN Q k' := by
  funext w n
  unfold reportParseErrorN
  rw [tellEvents_congr hR]

theorem addTextN_congr : addTextN P k = addTextN Q k' := by
  have hl : addLoopN P k = addLoopN Q k' := by
    funext fuel
    induction fuel with
    | zero => rfl
    | succ fuel ih =>
      funext w n b c
      unfold addLoopN
      rw [processLoopN_congr hR, reportParseErrorN_congr hR, ih]
  funext w n b
  unfold addTextN
  rw [hl, reportParseErrorN_congr hR]

theorem parserResetN_congr : parserResetN P k = parserResetN Q k' := by
  funext w n
  unfold parserResetN
  rw [tellConsumers_congr hR]

theorem parserAddN_congr : parserAddN P k = parserAddN Q k' := by
  have hd : parserDataN P k = parserDataN Q k' := by
    funext w n d
    unfold parserDataN
    rw [addTextN_congr hR, tellConsumers_congr hR]
  funext w n d
  unfold parserAddN
  rw [hd, parserResetN_congr hR, tellConsumers_congr hR]

theorem runCallN_congr : runCallN P k = runCallN Q k' := by
  funext w c
  have quiet : ∀ c : Call, Called (w.logAll [.call c]) (.call c) → tell P k w (.call c) = tell Q k' w (.call c) := fun c h => hR _ _ h
  cases c with
  | cfgStart n => rfl
  | cfgAdd n d => exact congrFun (congrFun (congrFun (parserAddN_congr hR) w) n) d
  | cfgReset n => exact congrFun (congrFun (parserResetN_congr hR) w) n
  | tx cb f =>
    unfold runCallN
    dsimp only
    cases h : w.station.callbacks.tx with
    | none => rfl
    | some cb => exact quiet _ ⟨by simp [logAll], h⟩
  | _ => exact quiet _ ⟨by simp [logAll], trivial⟩

theorem stepN_congr : stepN P k = stepN Q k' := by
  have hc : runCallsN P k = runCallsN Q k' := by
    funext w r
    unfold runCallsN
    rw [runCallN_congr hR]
  have hf : finishN P k = finishN Q k' := by
    funext w
    unfold finishN
    rw [parserResetN_congr hR]
  have he : requestEngineN P k = requestEngineN Q k' := by
    have hs : send8 P k = send8 Q k' := by
      funext w id bytes
      unfold send8
      rw [hc]
    funext w info p
    unfold requestEngineN
    rw [hf, hs]
  funext w op
  unfold stepN
  rw [hc, hf, he, parserAddN_congr hR, parserResetN_congr hR]

end

/-! ## C85 -/

theorem nested_congr {P Q : Program} (h : ∀ w e, Called w e → P w e = Q w e) (depth : Nat) : nested P depth = nested Q depth := by
  induction depth with
  | zero => rfl
  | succ depth ih =>
    funext w op
    unfold nested
    rw [stepN_congr (fun w e hc => ?_)]
    unfold react
    rw [h w e hc, ih]

/-- C85. Only what callbacks do in states in which they are called matters: two programs that do the same there behave the same. -/
theorem C85_seen (P Q : Program) (h : ∀ w e, Called w e → P w e = Q w e) (depth : Nat) (w : World) (ops : List Op) :
    runN P depth w ops = runN Q depth w ops := by
  unfold runN
  rw [stepN_congr (fun w e hc => ?_)]
  unfold react
  rw [h w e hc, nested_congr h depth]

/-- What a callback of the station calls when a frame is received is a history of its own, starting with the state in which the callback is
told of the frame. -/
theorem C85_received (P : Program) (depth : Nat) (w : World) (f : CanFrame) (c : Call) (h : w.station.HandlePacket w.processing f = .ok [c])
    (hc : ∀ n d, c ≠ .cfgStart n ∧ c ≠ .cfgReset n ∧ c ≠ .cfgAdd n d) :
    stepN P (nested P (depth + 1)) w (.handle f) = runN P depth (w.logAll [.call c]) (P (w.logAll [.call c]) (.call c)) := by
  show (Run.lift (w.station.HandlePacket w.processing f) >>= fun calls => calls.foldlM (runCallN P (nested P (depth + 1))) w) = _
  rw [h]
  show (runCallN P (nested P (depth + 1)) w c >>= pure) = _
  rw [bind_pure]
  cases c with
  | cfgStart n => exact absurd rfl (hc n {}).1
  | cfgReset n => exact absurd rfl (hc n {}).2.1
  | cfgAdd n d => exact absurd rfl (hc n d).2.2
  | tx cb f' =>
    have := HandlePacket_addressed _ _ _ _ h cb f' (List.mem_singleton.mpr rfl)
    unfold runCallN
    dsimp only
    rw [this]
    rfl
  | _ => rfl

/-- What the transmit callback calls when a packet is sent is a history of its own. -/
theorem C85_sent (P : Program) (depth : Nat) (w : World) (f : CanFrame) (cb : Nat) (h : w.station.callbacks.tx = some cb) :
    ∃ g, w.step (.sendPacket f) = .ok (w.logAll [.call (.tx cb g)]) ∧ stepN P (nested P (depth + 1)) w (.sendPacket f) =
      runN P depth (w.logAll [.call (.tx cb g)]) (P (w.logAll [.call (.tx cb g)]) (.call (.tx cb g))) := by
  refine ⟨{ f with id := f.id.setHash w.station.senderHash }, ?_, ?_⟩
  · simp only [step, stationCalls, Station.SendPacket, Station.txSend, h, bind, Except.bind]
    rfl
  · show (Run.lift (w.station.SendPacket f) >>= fun calls => calls.foldlM (runCallN P (nested P (depth + 1))) w) = _
    simp only [Station.SendPacket, Station.txSend, h]
    show (runCallN P (nested P (depth + 1)) w (.tx cb _) >>= pure) = _
    rw [bind_pure]
    unfold runCallN
    dsimp only
    rw [h]
    rfl

/-- A reset of a parser that waits, if the call on its consumer reaches one callback of the application. -/
theorem reset_told (P : Program) (k : World → Op → Run World) (w x v : World) (n c : Nat) (e : LogEntry) (hw : (w.parsers n).isProcessing = true)
    (hc : (w.parsers n).consumer = some c) (hcall : w.callConsumer ⟨c, .aborted⟩ = .ok x) (he : (x.log.drop w.log.length).filter w.reachesApp = [e]) :
    (parserResetN P k w n).Returns v ↔ ∃ u p, (react P k x e).Returns u ∧ (u.parsers n).resetClear = .ok p ∧ v = u.setParser n p := by
  have hn : (w.parsers n).resetNotify = [⟨c, .aborted⟩] := by
    unfold StreamParser.resetNotify StreamParser.notify
    rw [if_pos (by cases hs : (w.parsers n).state <;> simp_all [StreamParser.isProcessing]), hc]
  have ht : tellConsumers P k w [⟨c, .aborted⟩] = react P k x e := by
    show (callConsumerN P k w ⟨c, .aborted⟩ >>= pure) = _
    rw [bind_pure]
    unfold callConsumerN
    rw [hcall]
    show ((x.log.drop w.log.length).filter w.reachesApp).foldlM (react P k) x = _
    rw [he]
    show (react P k x e >>= pure) = _
    rw [bind_pure]
  unfold parserResetN
  rw [hn, ht, returns_bind]
  constructor
  · rintro ⟨u, h1, h2⟩
    obtain ⟨p, h3, h4⟩ := returns_bind.mp h2
    exact ⟨u, p, h1, returns_lift.mp h3, (returns_pure.mp h4).symm⟩
  · rintro ⟨u, p, h1, h2, rfl⟩
    exact ⟨u, h1, returns_bind.mpr ⟨p, returns_lift.mpr h2, returns_pure.mpr rfl⟩⟩

theorem app_told (w : World) (c : Nat) (a : ConsumerAction) (ha : w.consumers c = .app) :
    w.callConsumer ⟨c, a⟩ = .ok (w.logAll [.consumer ⟨c, a⟩]) ∧
      ((w.logAll [.consumer ⟨c, a⟩]).log.drop w.log.length).filter w.reachesApp = [.consumer ⟨c, a⟩] := by
  constructor
  · unfold callConsumer
    simp only [logAll, ha]
  · simp [logAll, reachesApp, ha]

theorem library_told (w : World) (c cb : Nat) (h : (w.consumers c).callback = .obj cb) : ∃ x seen,
    w.callConsumer ⟨c, .aborted⟩ = .ok x ∧ x.log = w.log ++ [.consumer ⟨c, .aborted⟩] ++ [.streamEnd cb c false seen] ∧
      (x.log.drop w.log.length).filter w.reachesApp = [.streamEnd cb c false seen] := by
  obtain ⟨x, seen, h1, h2⟩ := aborted_called w c cb h
  refine ⟨x, seen, h1, h2, ?_⟩
  rw [drop_log h2, List.filter_cons_of_neg]
  · rfl
  · simp only [reachesApp, Bool.not_eq_true, beq_eq_false_iff_ne]
    intro ha
    rw [ha] at h
    cases h

/-- What a consumer of the application calls when a stream is broken off is a history of its own; only then is the parser reset, whatever
that history left it like. -/
theorem C85_aborted (P : Program) (depth : Nat) (w v : World) (n c : Nat) (hw : (w.parsers n).isProcessing = true) (hc : (w.parsers n).consumer = some c)
    (ha : w.consumers c = .app) : (stepN P (nested P (depth + 1)) w (.parserReset n)).Returns v ↔
      ∃ u p, (runN P depth (w.logAll [.consumer ⟨c, .aborted⟩]) (P (w.logAll [.consumer ⟨c, .aborted⟩]) (.consumer ⟨c, .aborted⟩))).Returns u ∧
        (u.parsers n).resetClear = .ok p ∧ v = u.setParser n p :=
  reset_told P _ w _ v n c _ hw hc (app_told w c .aborted ha).1 (app_told w c .aborted ha).2

/-- The same for the end-of-stream callback of a consumer of the library. -/
theorem C85_ended (P : Program) (depth : Nat) (w : World) (n c cb : Nat) (hw : (w.parsers n).isProcessing = true) (hc : (w.parsers n).consumer = some c)
    (hcb : (w.consumers c).callback = .obj cb) : ∃ x seen, w.callConsumer ⟨c, .aborted⟩ = .ok x ∧
      x.log = w.log ++ [.consumer ⟨c, .aborted⟩] ++ [.streamEnd cb c false seen] ∧
      ∀ v, (stepN P (nested P (depth + 1)) w (.parserReset n)).Returns v ↔
        ∃ u p, (runN P depth x (P x (.streamEnd cb c false seen))).Returns u ∧ (u.parsers n).resetClear = .ok p ∧ v = u.setParser n p := by
  obtain ⟨x, seen, h1, h2, h3⟩ := library_told w c cb hcb
  exact ⟨x, seen, h1, h2, fun v => reset_told P _ w x v n c _ hw hc h1 h3⟩

/-! ## C59 for callbacks of every kind -/

/-- The registered parser waits for a packet and has the given consumer; `e` is what the callback behind the consumer is told if the stream
is broken off. -/
structure Waits (w : World) (n c : Nat) : Prop where
  registered : w.station.callbacks.configData = some n
  waiting : (w.parsers n).isProcessing = true
  consumer : (w.parsers n).consumer = some c

/-- The consumer, or the callback of one of the library, always begins, when told of an abort while the parser waits, with a call that
resets the parser. -/
def Recurses (P : Program) (n c : Nat) : Prop :=
  ∀ u e, Waits u n c → (e = .consumer ⟨c, .aborted⟩ ∨ ∃ cb seen, e = .streamEnd cb c false seen) → ∃ op rest, P u e = op :: rest ∧ AbortsByReset u n op

theorem stuckN_reset (P : Program) (k : World → Op → Run World) (w : World) (n c : Nat) (hw : Waits w n c) (hP : Recurses P n c)
    (hcb : w.consumers c = .app ∨ ∃ cb, (w.consumers c).callback = .obj cb)
    (hk : ∀ u op, Waits u n c → (u.consumers c = .app ∨ ∃ cb, (u.consumers c).callback = .obj cb) → AbortsByReset u n op → (k u op).run = none) :
    (parserResetN P k w n).run = none := by
  have hn : (w.parsers n).resetNotify = [⟨c, .aborted⟩] := by
    unfold StreamParser.resetNotify StreamParser.notify
    have := hw.waiting
    rw [if_pos (by cases hs : (w.parsers n).state <;> simp_all [StreamParser.isProcessing]), hw.consumer]
  have told : ∀ x e, w.callConsumer ⟨c, .aborted⟩ = .ok x → (x.log.drop w.log.length).filter w.reachesApp = [e] →
      (e = .consumer ⟨c, .aborted⟩ ∨ ∃ cb seen, e = .streamEnd cb c false seen) →
      (x.consumers c = .app ∨ ∃ cb, (x.consumers c).callback = .obj cb) → (parserResetN P k w n).run = none := by
    intro x e h1 h2 h3 h4
    obtain ⟨a1, a2, -⟩ := callConsumer_log w x _ h1
    have hx : Waits x n c := ⟨by rw [a2]; exact hw.registered, by rw [a1]; exact hw.waiting, by rw [a1]; exact hw.consumer⟩
    obtain ⟨op, rest, h5, h6⟩ := hP x e hx h3
    unfold parserResetN
    apply run_bind_none
    rw [hn]
    show (callConsumerN P k w ⟨c, .aborted⟩ >>= pure).run = none
    apply run_bind_none
    unfold callConsumerN
    rw [h1]
    show (((x.log.drop w.log.length).filter w.reachesApp).foldlM (react P k) x).run = none
    rw [h2]
    show (react P k x e >>= pure).run = none
    apply run_bind_none
    unfold react
    rw [h5, List.foldlM_cons]
    exact run_bind_none (hk x op hx h4 h6)
  rcases hcb with ha | ⟨cb, hcb⟩
  · obtain ⟨h1, h2⟩ := app_told w c .aborted ha
    exact told _ _ h1 h2 (Or.inl rfl) (Or.inl ha)
  · obtain ⟨x, seen, h1, h2, h3⟩ := library_told w c cb hcb
    obtain ⟨-, -, -, a4, -⟩ := callConsumer_log w x _ h1
    exact told _ _ h1 h3 (Or.inr ⟨cb, seen, rfl⟩) (Or.inr ⟨cb, by rw [a4]; exact hcb⟩)

theorem stuckN_step (P : Program) (k : World → Op → Run World) (w : World) (n c : Nat) (hw : Waits w n c) (hP : Recurses P n c)
    (hcb : w.consumers c = .app ∨ ∃ cb, (w.consumers c).callback = .obj cb)
    (hk : ∀ u op, Waits u n c → (u.consumers c = .app ∨ ∃ cb, (u.consumers c).callback = .obj cb) → AbortsByReset u n op → (k u op).run = none)
    (op : Op) (ho : AbortsByReset w n op) : (stepN P k w op).run = none := by
  have hreset := stuckN_reset P k w n c hw hP hcb hk
  have hfin : (finishN P k w).run = none := by
    unfold finishN
    rw [hw.registered]
    exact run_bind_none hreset
  have hadd : ∀ d, resets (w.parsers n) d = true → (parserAddN P k w n d).run = none := by
    intro d hd
    unfold parserAddN
    rw [if_pos hd]
    exact hreset
  cases ho with
  | begin_ _ _ => exact run_bind_none hfin
  | finish => exact hfin
  | abort => exact hfin
  | notifyReceived => exact hfin
  | requestEngineList _ _ => exact run_bind_none hfin
  | parserReset => exact hreset
  | badPacket d hd => exact hadd d hd
  | badFrame f hf hd =>
    show (Run.lift (w.station.HandlePacket w.processing f) >>= fun calls => calls.foldlM (runCallN P k) w).run = none
    rw [handle_waiting w n hw.registered hw.waiting f hf]
    show (runCallN P k w (.cfgAdd n f.data) >>= pure).run = none
    exact run_bind_none (hadd f.data hd)

/-- C59 is false for callbacks of every kind: if the consumer of the registered parser is one of the application, or one of the library with a
callback, and it begins with a call that resets the parser whenever it is told of an abort, then every such call recurses until the stack is
exhausted, whatever the other callbacks do. -/
theorem C59_nested_false (P : Program) (w : World) (n c : Nat) (hw : Waits w n c) (hP : Recurses P n c)
    (hcb : w.consumers c = .app ∨ ∃ cb, (w.consumers c).callback = .obj cb) (op : Op) (ho : AbortsByReset w n op) (depth : Nat) :
    (stepN P (nested P depth) w op).Exhausted := by
  have hk : ∀ d u op, Waits u n c → (u.consumers c = .app ∨ ∃ cb, (u.consumers c).callback = .obj cb) → AbortsByReset u n op →
      (nested P d u op).run = none := by
    intro d
    induction d with
    | zero => intro _ _ _ _ _; rfl
    | succ d ih => intro u op h1 h2 h3; exact stuckN_step P (nested P d) u n c h1 hP h2 ih op h3
  exact stuckN_step P (nested P depth) w n c hw hP hcb (hk depth) op ho

/-! ## C74: the two models of callbacks that call back -/

/-- The call a reaction is. -/
def _root_.RR32.Reaction.op : Reaction → Op
  | .finish => .notifyReceived
  | .requestList offset p => .requestEngineList offset p
  | .attach n c => .parserStart n c

/-- The program in which only end-of-stream callbacks call back. -/
def _root_.RR32.React.program (R : React) : Program := fun _ e =>
  match e with
  | .streamEnd cb _ complete _ => (R cb complete).map Reaction.op
  | _ => []

/-- Two runs return the same. -/
def Same {α : Type} (x y : Run α) : Prop := ∀ v, x.Returns v ↔ y.Returns v

theorem same_refl {α : Type} (x : Run α) : Same x x := fun _ => Iff.rfl

theorem same_bind {α β : Type} {x y : Run α} {f g : α → Run β} (h : Same x y) (hf : ∀ a, Same (f a) (g a)) : Same (x >>= f) (y >>= g) := by
  intro v
  rw [returns_bind, returns_bind]
  exact exists_congr (fun a => and_congr (h a) (hf a v))

theorem same_bind_of {α β : Type} {x y : Run α} {f g : α → Run β} (h : Same x y) (hf : ∀ a, x.Returns a → Same (f a) (g a)) : Same (x >>= f) (y >>= g) := by
  intro v
  rw [returns_bind, returns_bind]
  constructor
  · rintro ⟨a, h1, h2⟩; exact ⟨a, (h a).mp h1, (hf a h1 v).mp h2⟩
  · rintro ⟨a, h1, h2⟩; exact ⟨a, (h a).mpr h1, (hf a ((h a).mpr h1) v).mpr h2⟩

theorem same_foldlM {α β : Type} {f g : β → α → Run β} (h : ∀ b a, Same (f b a) (g b a)) (l : List α) (b : β) : Same (l.foldlM f b) (l.foldlM g b) := by
  induction l generalizing b with
  | nil => exact same_refl _
  | cons a l ih => exact same_bind (h b a) ih

section
variable {R : React} {k : World → Op → Run World} {kR : World → Reaction → Run World} (hk : ∀ w r, Same (k w r.op) (kR w r))
include hk

theorem same_reactions (p : LogEntry → Bool) (hp : ∀ cb c b seen, p (.streamEnd cb c b seen) = true) (l : List LogEntry) (w : World) :
    Same ((l.filter p).foldlM (react R.program k) w) ((reactions R l).foldlM kR w) := by
  induction l generalizing w with
  | nil => exact same_refl _
  | cons e l ih =>
    have skip : (∀ u, R.program u e = []) → reactions R (e :: l) = reactions R l →
        Same (((e :: l).filter p).foldlM (react R.program k) w) ((reactions R (e :: l)).foldlM kR w) := by
      intro h1 h2
      rw [h2]
      by_cases hpe : p e = true
      · rw [List.filter_cons_of_pos hpe, List.foldlM_cons]
        show Same ((R.program w e).foldlM k w >>= _) _
        rw [h1]
        exact ih w
      · rw [List.filter_cons_of_neg hpe]
        exact ih w
    cases e with
    | call c => exact skip (fun _ => rfl) rfl
    | consumer c => exact skip (fun _ => rfl) rfl
    | streamEnd cb c b seen =>
      rw [List.filter_cons_of_pos (hp ..), List.foldlM_cons]
      show Same (((R cb b).map Reaction.op).foldlM k w >>= _) ((R cb b ++ reactions R l).foldlM kR w)
      rw [List.foldlM_append, List.foldlM_map]
      exact same_bind (same_foldlM (fun u r => hk u r) _ _) ih

theorem same_callConsumer (w : World) (c : ConsumerCall) : Same (callConsumerN R.program k w c) (callConsumerR R kR w c) :=
  same_bind (same_refl _) (fun _ => same_reactions hk _ (fun _ _ _ _ => rfl) _ _)

theorem same_reset (w : World) (n : Nat) : Same (parserResetN R.program k w n) (parserResetR R kR w n) :=
  same_bind (same_foldlM (same_callConsumer hk) _ _) (fun _ => same_refl _)

theorem same_finish (w : World) : Same (finishN R.program k w) (finishR R kR w) := by
  unfold finishN finishR
  cases w.station.callbacks.configData with
  | none => exact same_refl _
  | some n => exact same_bind (same_reset hk w n) (fun _ => same_refl _)

omit hk in
/-- If the calls of a packet on its consumer run, they run without callbacks too. -/
theorem calls_run {w v : World} (cs : List ConsumerCall) (pre tail : List ConsumerCall) (he : cs = pre ++ tail)
    (hpre : ∀ c ∈ pre, c.action.end? = none) (ht : tail = [] ∨ ∃ c, tail = [c]) (h : (cs.foldlM (callConsumerR R kR) w).Returns v) :
    ∃ u, w.callConsumers cs = .ok u := by
  subst he
  rw [List.foldlM_append] at h
  obtain ⟨x, h1, h2⟩ := returns_bind.mp h
  have h3 := (callConsumersR_plain R kR pre w (Or.inr hpre)).1
  have hx : w.callConsumers pre = .ok x := by
    unfold Run.Returns at h1
    rw [h1] at h3
    injection h3 with h3
    exact h3.symm
  rw [callConsumers_append, hx]
  show ∃ u, x.callConsumers tail = .ok u
  rcases ht with rfl | ⟨c, rfl⟩
  · exact ⟨x, rfl⟩
  · rw [List.foldlM_cons] at h2
    obtain ⟨y, h4, -⟩ := returns_bind.mp h2
    obtain ⟨z, h5, -⟩ := returns_bind.mp h4
    have h5 := returns_lift.mp h5
    exact ⟨z, by show x.callConsumer c >>= pure = _; rw [h5]; rfl⟩

theorem same_add (w : World) (n : Nat) (d : Data) : Same (parserAddN R.program k w n d) (parserAddR R kR w n d) := by
  by_cases hr : resets (w.parsers n) d = true
  · unfold parserAddN parserAddR
    rw [if_pos hr, if_pos hr]
    exact same_reset hk w n
  · have hr : resets (w.parsers n) d = false := by simpa using hr
    have ha : Awaited (w.parsers n) d := by
      unfold resets at hr
      constructor
      · intro hs
        rw [hs] at hr
        by_contra hn
        simp at hr
        exact hn (by by_cases h : d.dlc = 6#8 <;> [exact Or.inl h; exact Or.inr (hr h)])
      · intro hs
        rw [hs] at hr
        simpa using hr
    intro v
    rw [parserAddN_later (fun _ _ _ _ _ => rfl) w v n d ha]
    have main : ∀ u, w.parserAdd n d = .ok u → (Later R.program k w u v ↔ (parserAddR R kR w n d).Returns v) := by
      intro u hu
      have h1 := (parserAddR_eq R kR w n d hr u hu).1
      unfold Run.Returns
      rw [h1]
      exact same_reactions hk _ (fun _ _ _ _ => rfl) _ _ v
    constructor
    · rintro ⟨u, hu, h⟩
      exact (main u hu).mp h
    · intro h
      have : ∃ u, w.parserAdd n d = .ok u := by
        have h' := h
        unfold parserAddR at h'
        rw [hr, if_neg (by decide)] at h'
        obtain ⟨⟨p, cs⟩, h2, h3⟩ := returns_bind.mp h'
        have h2 := returns_lift.mp h2
        obtain ⟨pre, tail, h4, h5, h6⟩ := addMessage_shape _ p d cs h2 hr
        obtain ⟨u, hu⟩ := calls_run cs pre tail h4 h5 (h6.imp_right (·.2)) h3
        exact ⟨u, by unfold parserAdd; rw [h2]; exact hu⟩
      obtain ⟨u, hu⟩ := this
      exact ⟨u, hu, (main u hu).mpr h⟩

end

/-- No callback at all. -/
def silentProgram : Program := fun _ _ => []

/-- A call of the station that does not reach a parser. -/
theorem quiet_call (R : React) (k k' : World → Op → Run World) (w : World) (c : Call) (hc : ∀ n d, c ≠ .cfgReset n ∧ c ≠ .cfgAdd n d) :
    runCallN R.program k w c = runCallN silentProgram k' w c := by
  cases c with
  | cfgReset n => exact absurd rfl (hc n {}).1
  | cfgAdd n d => exact absurd rfl (hc n d).2
  | _ => rfl

theorem quiet_calls (R : React) (k k' : World → Op → Run World) (w : World) (cs : List Call) (hc : ∀ c ∈ cs, ∀ n d, c ≠ .cfgReset n ∧ c ≠ .cfgAdd n d) :
    cs.foldlM (runCallN R.program k) w = cs.foldlM (runCallN silentProgram k') w := by
  induction cs generalizing w with
  | nil => rfl
  | cons c cs ih =>
    rw [List.foldlM_cons, List.foldlM_cons, quiet_call R k k' w c (hc c (List.mem_cons_self ..))]
    congr 1
    funext u
    exact ih u (fun c h => hc c (List.mem_cons_of_mem _ h))

theorem list_calls (s s' : Station) (offset : Byte) (p : Option Nat) (cs : List Call) (hs : s.callbacks.configData = none)
    (h : s.RequestEngineList offset p = .ok (s', cs)) : ∀ c ∈ cs, ∀ n d, c ≠ .cfgReset n ∧ c ≠ .cfgAdd n d := by
  cases htx : s.callbacks.tx with
  | none => rw [requestEngineList_null s offset p htx] at h; cases h
  | some cb =>
    obtain ⟨f1, f2, e, -⟩ := C20_request_engine_list s cb htx offset p
    rw [e, hs] at h
    cases h
    intro c hc n d
    cases p with
    | none =>
      simp only [Option.toList, List.map_nil, List.nil_append, List.mem_cons, List.not_mem_nil, or_false] at hc
      rcases hc with rfl | rfl <;> simp
    | some m =>
      simp only [Option.toList, List.map_nil, List.map_cons, List.nil_append, List.cons_append, List.mem_cons, List.not_mem_nil, or_false] at hc
      rcases hc with rfl | rfl | rfl <;> simp

/-- A request for the list, if no request is current. -/
theorem same_list (R : React) (k : World → Op → Run World) (w : World) (hw : w.station.callbacks.configData = none) (offset : Byte) (p : Option Nat) :
    Same (Run.lift (w.station.RequestEngineList offset p) >>= fun x => runCallsN R.program k { w with station := x.1 } (.ok x.2))
      (Run.lift (w.stationUpdate (w.station.RequestEngineList offset p))) := by
  intro v
  have h1 := stepN_silent (P := silentProgram) (k := k) (fun _ _ => rfl) w v (.requestEngineList offset p)
  have h2 : finishN silentProgram k w = pure w := by unfold finishN; rw [hw]
  have h3 : stepN silentProgram k w (.requestEngineList offset p) =
      (Run.lift (w.station.RequestEngineList offset p) >>= fun x => runCallsN silentProgram k { w with station := x.1 } (.ok x.2)) := by
    show (finishN silentProgram k w >>= _) = _
    rw [h2]
    rfl
  rw [h3] at h1
  rw [returns_lift]
  refine Iff.trans ?_ h1
  rw [returns_bind, returns_bind]
  refine exists_congr (fun x => and_congr_right (fun hx => ?_))
  have hx := returns_lift.mp hx
  show (x.2.foldlM (runCallN R.program k) _).Returns v ↔ (x.2.foldlM (runCallN silentProgram k) _).Returns v
  rw [quiet_calls R k k _ x.2 (list_calls w.station x.1 offset p x.2 hw hx)]

theorem finishN_none {P : Program} {k : World → Op → Run World} {w v : World} (h : (finishN P k w).Returns v) : v.station.callbacks.configData = none := by
  unfold finishN at h
  cases hn : w.station.callbacks.configData with
  | none => rw [hn] at h; rw [← returns_pure.mp h]; exact hn
  | some n =>
    rw [hn] at h
    obtain ⟨u, -, h2⟩ := returns_bind.mp h
    rw [← returns_pure.mp h2]
    rfl

theorem same_nested (R : React) (depth : Nat) (w : World) (r : Reaction) : Same (nested R.program depth w r.op) (perform R depth w r) := by
  induction depth generalizing w r with
  | zero => exact same_refl _
  | succ depth ih =>
    cases r with
    | finish => exact same_finish ih w
    | requestList offset p => exact same_bind_of (same_finish ih w) (fun a ha => same_list R _ a (finishN_none ha) offset p)
    | attach n c => exact same_refl _

theorem quiet_send8 (R : React) (k k' : World → Op → Run World) : send8 R.program k = send8 silentProgram k' := by
  funext w id bytes
  unfold send8 runCallsN
  unfold Station.txSend
  split
  · rfl
  · exact quiet_calls R k k' w _ (fun c hc n d => by rw [List.mem_singleton.mp hc]; simp)

theorem quiet_request (R : React) (k k' : World → Op → Run World) (w : World) (info : World → ShortInfo) (p : Option Nat) :
    requestEngineN R.program k w info p = requestEngineN silentProgram k' w info p := by
  unfold requestEngineN
  by_cases h1 : (!(info w).isNameKnown) = true
  · rw [if_pos h1, if_pos h1]
  · rw [if_neg h1, if_neg h1]
    by_cases h2 : (w.station.callbacks.configData.isSome && w.processing) = true
    · rw [if_pos h2, if_pos h2]
    · rw [if_neg h2, if_neg h2, quiet_send8 R k k']
      have : finishN R.program k w = finishN silentProgram k' w := by
        unfold finishN
        cases hn : w.station.callbacks.configData with
        | none => rfl
        | some n =>
          have hp : (w.parsers n).resetNotify = [] := by
            simp only [hn, World.processing, Option.isSome, Bool.true_and] at h2
            unfold StreamParser.resetNotify
            rw [if_neg]
            intro hw
            apply h2
            rcases hw with hw | hw <;> simp [StreamParser.isProcessing, hw]
          dsimp only
          unfold parserResetN
          rw [hp]
          rfl
      rw [this]

theorem same_received (R : React) (depth : Nat) (cs : List Call) (w : World) (h : ∀ cb f, Call.tx cb f ∉ cs) :
    Same (cs.foldlM (runCallN R.program (nested R.program depth)) w) (cs.foldlM (runCallR R depth) w) := by
  have hk := same_nested R depth
  induction cs generalizing w with
  | nil => exact same_refl _
  | cons c cs ih =>
    rw [List.foldlM_cons, List.foldlM_cons]
    refine same_bind ?_ (fun u => ih u (fun cb f hm => h cb f (List.mem_cons_of_mem _ hm)))
    cases c with
    | cfgAdd n d => exact same_add hk w n d
    | cfgReset n => exact same_reset hk w n
    | tx cb f => exact absurd (List.mem_cons_self ..) (h cb f)
    | _ => exact same_refl _

/-- C74. If only end-of-stream callbacks call back, and only with the calls of `Model/Reentrant.lean`, this model and that one return the
same. -/
theorem C74_reentrant (R : React) (depth : Nat) (w v : World) (ops : List Op) : (runN R.program depth w ops).Returns v ↔ (runR R depth w ops).Returns v := by
  have hk := same_nested R depth
  suffices ∀ w op, Same (stepN R.program (nested R.program depth) w op) (stepR R depth w op) from same_foldlM this ops w v
  clear w v
  intro w op
  by_cases hop : op.isCommand = true
  · intro v
    obtain ⟨r, h1, h2, h3⟩ := command_calls w op hop
    have h4 : stepN R.program (nested R.program depth) w op = stepN silentProgram (nested R.program depth) w op := by
      rw [h2, h2]
      unfold runCallsN
      cases r with
      | error e => rfl
      | ok cs => exact quiet_calls R _ _ w cs (fun c hc n d => by obtain ⟨cb, f, rfl⟩ := h3 cs rfl c hc; simp)
    have h5 : stepR R depth w op = Run.lift (w.step op) := by
      cases op <;> first | rfl | exact absurd hop (by simp [Op.isCommand])
    rw [h4, h5, returns_lift]
    exact stepN_silent (P := silentProgram) (fun _ _ => rfl) w v op
  cases op with
  | begin_ uuid cbs => exact same_bind (same_finish hk w) (fun _ => same_refl _)
  | requestEngineList offset p => exact same_bind_of (same_finish hk w) (fun a ha => same_list R _ a (finishN_none ha) offset p)
  | finish => exact same_finish hk w
  | abort => exact same_finish hk w
  | notifyReceived => exact same_finish hk w
  | parserAdd n d => exact same_add hk w n d
  | parserReset n => exact same_reset hk w n
  | requestEngine e p =>
    intro v
    show (requestEngineN R.program (nested R.program depth) w (fun w => (w.engines e).info) p).Returns v ↔ (Run.lift (w.step (.requestEngine e p))).Returns v
    rw [quiet_request R _ (nested R.program depth), returns_lift]
    exact stepN_silent (P := silentProgram) (k := nested R.program depth) (fun _ _ => rfl) w v (.requestEngine e p)
  | requestShortInfo i p =>
    intro v
    show (requestEngineN R.program (nested R.program depth) w (fun _ => i) p).Returns v ↔ (Run.lift (w.step (.requestShortInfo i p))).Returns v
    rw [quiet_request R _ (nested R.program depth), returns_lift]
    exact stepN_silent (P := silentProgram) (k := nested R.program depth) (fun _ _ => rfl) w v (.requestShortInfo i p)
  | handle f =>
    intro v
    show (Run.lift (w.station.HandlePacket w.processing f) >>= fun cs => cs.foldlM (runCallN R.program (nested R.program depth)) w).Returns v ↔
      (Run.lift (w.station.HandlePacket w.processing f) >>= fun cs => cs.foldlM (runCallR R depth) w).Returns v
    rw [returns_bind, returns_bind]
    refine exists_congr (fun cs => and_congr_right (fun hcs => ?_))
    exact same_received R depth cs w (fun cb g hm => (C14_no_tx _ _ f cs (returns_lift.mp hcs) _ hm).1 cb g rfl) v
  | _ => first | exact same_refl _ | exact absurd rfl hop

/-! ## Cases -/

/-- A program with an accessory callback that answers a switched turnout with a stop. -/
def answering : Program := fun _ e => match e with
  | .call (.onAccessoryPacket ..) => [.sendStop]
  | _ => []

/-- A turnout was switched. -/
def switched : CanFrame := { id := Identifier.mk' kAccessorySwitch 0x0301#16, data := { dlc := 6#8 } }

/-- `demoWorld` with an accessory callback. -/
def caseAccessory : World := { demoWorld with station := { demoWorld.station with callbacks := { demoWorld.station.callbacks with accessory := some 4 } } }

/-- Non-vacuity of `C85_received`: the frame is told to the callback, and its stop is sent. -/
example : (∃ c, caseAccessory.station.HandlePacket caseAccessory.processing switched = .ok [c] ∧ ∀ n d, c ≠ .cfgStart n ∧ c ≠ .cfgReset n ∧ c ≠ .cfgAdd n d) ∧
    (sentIn caseAccessory (stepN answering (nested answering 1) caseAccessory (.handle switched))).map (·.map commandOf) = some [0] := by
  refine ⟨⟨.onAccessoryPacket 4 switched.data false, by decide +kernel, by simp⟩, by decide +kernel⟩

/-- Non-vacuity of `C85_seen`: programs that differ where no callback is called. -/
example : let P : Program := fun w e => if w.log.getLast? = some e then [] else [.sendStop]
    (∀ w e, Called w e → P w e = silentProgram w e) ∧ P demoWorld (.consumer ⟨7, .aborted⟩) ≠ silentProgram demoWorld (.consumer ⟨7, .aborted⟩) := by
  refine ⟨fun w e h => by simp [h.1, silentProgram], ?_⟩
  show (if demoWorld.log.getLast? = some (.consumer ⟨7, .aborted⟩) then [] else [Op.sendStop]) ≠ []
  rw [if_neg (by rw [show demoWorld.log = [] from rfl]; simp)]
  simp

/-- A consumer that, told of an abort, ends the request; another callback sends frames. -/
def ending : Program := fun _ e => match e with
  | .consumer ⟨7, .aborted⟩ | .streamEnd _ 7 false _ => [.notifyReceived, .sendGo]
  | .call (.onAccessoryPacket ..) => [.sendStop]
  | _ => []

theorem ending_recurses : Recurses ending 0 7 := by
  intro u e _ he
  rcases he with rfl | ⟨cb, seen, rfl⟩
  · exact ⟨.notifyReceived, [.sendGo], rfl, .notifyReceived⟩
  · exact ⟨.notifyReceived, [.sendGo], rfl, .notifyReceived⟩

/-- Non-vacuity of `C59_nested_false`: with a consumer of the library, and with one of the application, a malformed frame overflows the stack. -/
example (depth : Nat) : (stepN ending (nested ending depth) caseWorld (.handle { id := ⟨0x420301#32⟩, data := { dlc := 3#8 } })).Exhausted ∧
    (stepN ending (nested ending depth) { caseWorld with consumers := fun _ => .app } (.handle { id := ⟨0x420301#32⟩, data := { dlc := 3#8 } })).Exhausted :=
  ⟨C59_nested_false _ _ 0 7 ⟨rfl, rfl, rfl⟩ ending_recurses (Or.inr ⟨9, rfl⟩) _ (.badFrame _ (by decide) (by decide)) depth,
   C59_nested_false _ _ 0 7 ⟨rfl, rfl, rfl⟩ ending_recurses (Or.inl rfl) _ (.badFrame _ (by decide) (by decide)) depth⟩

/-- Non-vacuity of `C74_reentrant`: a callback that asks for the next part of the list. -/
example : ∃ v, (runN (React.program (fun _ b => if b then [.requestList 2#8 (some 0)] else [])) 2 caseWorld [.handle { id := ⟨0x420301#32⟩, data := { dlc := 6#8 } }]).Returns v ∧
    v.station.callbacks.configData = some 0 ∧ (v.parsers 0).state = .WAITING_FIRST_PACKET := by
  obtain ⟨v, h1, h2⟩ := returns_check (x := runN (React.program (fun _ b => if b then [.requestList 2#8 (some 0)] else [])) 2 caseWorld
    [.handle { id := ⟨0x420301#32⟩, data := { dlc := 6#8 } }])
    (fun v => v.station.callbacks.configData = some 0 ∧ (v.parsers 0).state = .WAITING_FIRST_PACKET) (by decide +kernel)
  exact ⟨v, h1, of_decide_eq_true h2⟩

end World

end RR32
