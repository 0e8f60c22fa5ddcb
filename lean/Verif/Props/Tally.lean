import Verif.Proofs.Tally
import Verif.Props.Exchange

/-!
# C115: frames are counted by calls, with callbacks that call back
-/

set_option autoImplicit false

namespace RR32

open Spec

theorem budget_refl (B : LogEntry → Nat) (w : World) : InBudget B 0 w w := ⟨[], by simp, by simp [Bus.sent]⟩

theorem sent_append_length (a b : List LogEntry) : (Bus.sent (a ++ b)).length = (Bus.sent a).length + (Bus.sent b).length := by
  unfold Bus.sent
  rw [List.filterMap_append, List.length_append]

theorem Spec.InBudget.trans {B : LogEntry → Nat} {c d : Nat} {w x v : World} (h : InBudget B c w x) (h' : InBudget B d x v) : InBudget B (c + d) w v := by
  obtain ⟨a, ha, hc⟩ := h
  obtain ⟨b, hb, hd⟩ := h'
  refine ⟨a ++ b, by rw [hb, ha, List.append_assoc], ?_⟩
  rw [sent_append_length, List.map_append, List.sum_append]
  omega

theorem Spec.InBudget.mono {B : LogEntry → Nat} {c d : Nat} {w v : World} (h : InBudget B c w v) (hc : c ≤ d) : InBudget B d w v := by
  obtain ⟨a, ha, h⟩ := h
  exact ⟨a, ha, by omega⟩

theorem budget_sends {B : LogEntry → Nat} {c : Nat} {w v : World} (h : SendsAtMost c w v) : InBudget B c w v := by
  obtain ⟨a, ha, h⟩ := h
  exact ⟨a, ha, by omega⟩

theorem keeps_of {α : Type} {x : Run α} {Q : α → Prop} (h : ∀ a, x.Returns a → Q a) : x.Keeps Q := by
  unfold Run.Keeps Run.Sat
  split
  · trivial
  · trivial
  · next a e => exact h a e

theorem sum_filter_le (B : LogEntry → Nat) (p : LogEntry → Bool) (l : List LogEntry) : ((l.filter p).map B).sum ≤ (l.map B).sum := by
  induction l with
  | nil => simp
  | cons x l ih =>
    rw [List.filter_cons]
    split <;> simp only [List.map_cons, List.sum_cons] <;> omega

theorem budget_fold {α : Type} {B : LogEntry → Nat} {cost : α → Nat} {f : World → α → Run World}
    (hf : ∀ w a v, (f w a).Returns v → InBudget B (cost a) w v) (l : List α) : ∀ (w v : World), (l.foldlM f w).Returns v → InBudget B (l.map cost).sum w v := by
  induction l with
  | nil => intro w v h; rw [World.returns_pure.mp h]; exact budget_refl B v
  | cons a l ih =>
    intro w v h
    rw [List.foldlM_cons] at h
    obtain ⟨x, h1, h2⟩ := returns_bind.mp h
    exact (hf w a x h1).trans (ih x v h2)

namespace World

section
variable {B : LogEntry → Nat} {P : Program} {k : World → Op → Run World} (hR : ∀ w e v, (react P k w e).Returns v → InBudget B (B e) w v)
include hR

theorem callConsumerN_within (w v : World) (c : ConsumerCall) (h : (callConsumerN P k w c).Returns v) : InBudget B 0 w v := by
  unfold callConsumerN at h
  obtain ⟨x, h1, h2⟩ := returns_bind.mp h
  obtain ⟨⟨-, -, new, hn, hq⟩, -⟩ := callConsumer_quiet w x c (returns_lift.mp h1)
  rw [hn, List.drop_left] at h2
  obtain ⟨more, hm, hs⟩ := budget_fold (cost := B) (fun u e z => hR u e z) _ x v h2
  refine ⟨new ++ more, by rw [hm, hn, List.append_assoc], ?_⟩
  rw [sent_append_length, sent_notCall new hq, List.map_append, List.sum_append]
  have := sum_filter_le B w.reachesApp new
  simp only [List.length_nil]
  omega

theorem consumer_kept (w0 : World) (d : Nat) (w : World) (c : ConsumerCall) (h : InBudget B d w0 w) : (callConsumerN P k w c).Keeps (InBudget B d w0) :=
  keeps_of fun v hv => h.trans (callConsumerN_within hR w v c hv)

theorem parserAddN_within (w v : World) (n : Nat) (d : Data) (h : (parserAddN P k w n d).Returns v) : InBudget B 0 w v :=
  keeps_returns (parserAddN_tallied (I := InBudget B 0 w) (fun _ _ _ h => h) (fun u c hu => consumer_kept hR w 0 u c hu) w d (budget_refl B w)) h

theorem parserResetN_within (w v : World) (n : Nat) (h : (parserResetN P k w n).Returns v) : InBudget B 0 w v :=
  keeps_returns (parserResetN_tallied (I := InBudget B 0 w) (fun _ _ _ h => h) (fun u c hu => consumer_kept hR w 0 u c hu) w (budget_refl B w)) h

theorem tell_within (w v : World) (e : LogEntry) (h : (tell P k w e).Returns v) : InBudget B (Bus.sent [e]).length w v := by
  obtain ⟨new, hn, hs⟩ := hR _ _ _ h
  refine ⟨[e] ++ new, by rw [hn]; exact List.append_assoc .., ?_⟩
  rw [sent_append_length, List.map_append, List.sum_append]
  simp only [List.map_cons, List.map_nil, List.sum_cons, List.sum_nil]
  omega

theorem runCallN_within (w : World) (c : Call) (v : World) (h : (runCallN P k w c).Returns v) : InBudget B (Bus.sent [.call c]).length w v := by
  unfold runCallN at h
  split at h
  · rw [← returns_pure.mp h]; exact (show InBudget B 0 w (w.setParser _ _) from budget_refl B w).mono (Nat.zero_le _)
  · exact (parserAddN_within hR w v _ _ h).mono (Nat.zero_le _)
  · exact (parserResetN_within hR w v _ h).mono (Nat.zero_le _)
  · split at h
    · cases returns_lift.mp h
    · exact (tell_within hR w v _ h).mono (Nat.le_refl 1)
  · exact tell_within hR w v _ h

omit hR in
theorem sent_sum (cs : List Call) : (cs.map fun c => (Bus.sent [.call c]).length).sum = (Bus.sent (cs.map .call)).length := by
  induction cs with
  | nil => rfl
  | cons c cs ih =>
    rw [List.map_cons, List.sum_cons, ih, List.map_cons, show (LogEntry.call c :: cs.map LogEntry.call) = [.call c] ++ cs.map .call from rfl,
      sent_append_length]

theorem runCallsN_within (w v : World) (r : Res (List Call)) (h : (runCallsN P k w r).Returns v) :
    ∃ cs, r = .ok cs ∧ InBudget B (Bus.sent (cs.map .call)).length w v := by
  unfold runCallsN at h
  obtain ⟨cs, h1, h2⟩ := returns_bind.mp h
  refine ⟨cs, returns_lift.mp h1, ?_⟩
  rw [← sent_sum]
  exact budget_fold (fun u c z => runCallN_within hR u c z) cs w v h2

theorem finishN_within (w v : World) (h : (finishN P k w).Returns v) : InBudget B 0 w v := by
  unfold finishN at h
  split at h
  · rw [← returns_pure.mp h]; exact budget_refl B w
  · obtain ⟨x, h1, h2⟩ := returns_bind.mp h
    rw [← returns_pure.mp h2]
    exact parserResetN_within hR w x _ h1

theorem send8_within (w v : World) (id : Identifier) (bytes : List Byte) (h : (send8 P k w id bytes).Returns v) : InBudget B 1 w v := by
  obtain ⟨cs, h1, h2⟩ := runCallsN_within hR w v _ h
  refine h2.mono ?_
  unfold Station.txSend at h1
  split at h1
  · cases h1
  · cases h1; exact Nat.le_refl _

theorem requestEngineN_within (w v : World) (info : World → ShortInfo) (p : Option Nat) (h : (requestEngineN P k w info p).Returns v) :
    InBudget B 3 w v := by
  unfold requestEngineN at h
  split at h
  · rw [← returns_pure.mp h]; exact (budget_refl B w).mono (Nat.zero_le _)
  · split at h
    · rw [← returns_pure.mp h]; exact (budget_refl B w).mono (Nat.zero_le _)
    · obtain ⟨x, h1, h⟩ := returns_bind.mp h
      have hx := finishN_within hR w x h1
      have go : ∀ (y : World), InBudget B 0 w y → ∀ (id : Identifier), (do
          let mem ← Run.lift (strncpy ({} : Data).bytes kEngine Data.kDataBufferLength)
          let w ← send8 P k y id mem
          let engineNameLength ← Run.lift (strlen (info w).name)
          let mem ← Run.lift (strncpy ({} : Data).bytes (info w).name CanDataMaxLength)
          let w ← send8 P k w id mem
          let mem ← Run.lift (if engineNameLength > CanDataMaxLength then
              strncpy ({} : Data).bytes ((info w).name.drop CanDataMaxLength) CanDataMaxLength
            else .ok ({} : Data).bytes)
          send8 P k w id mem : Run World).Returns v → InBudget B 3 w v := by
        intro y hy id h
        obtain ⟨_, -, h⟩ := returns_bind.mp h
        obtain ⟨a, ha, h⟩ := returns_bind.mp h
        obtain ⟨_, -, h⟩ := returns_bind.mp h
        obtain ⟨_, -, h⟩ := returns_bind.mp h
        obtain ⟨b, hb, h⟩ := returns_bind.mp h
        obtain ⟨_, -, h⟩ := returns_bind.mp h
        exact ((hy.trans (send8_within hR _ _ _ _ ha)).trans (send8_within hR _ _ _ _ hb)).trans (send8_within hR _ _ _ _ h)
      cases p with
      | none => exact go (x.register none) hx _ h
      | some n => exact go ((x.register (some n)).setParser n ((x.register (some n)).parsers n).startStream) hx _ h

/-- One call, if the callbacks keep to their budgets. -/
theorem stepN_within (w v : World) (op : Op) (h : (stepN P k w op).Returns v) : InBudget B (frameLimit op) w v := by
  by_cases hop : op.isCommand = true
  · obtain ⟨r, h1, h2, h3⟩ := command_calls w op hop
    rw [h2] at h
    obtain ⟨cs, h4, h5⟩ := runCallsN_within hR w v r h
    refine h5.mono ?_
    have hs : w.step op = .ok (w.logAll (cs.map .call)) := by rw [h1, h4]; exact runCalls_sends w cs (h3 cs h4)
    obtain ⟨new, hn, hl⟩ := step_atMost _ _ _ hs
    rw [List.append_cancel_left (show w.log ++ cs.map .call = w.log ++ new from hn)]
    exact hl
  · have lifted : (Run.lift (w.step op)).Returns v → InBudget B (frameLimit op) w v := fun h =>
      budget_sends (step_atMost _ _ _ (returns_lift.mp h))
    cases op with
    | begin_ uuid cbs =>
      obtain ⟨x, h1, h⟩ := returns_bind.mp h
      exact (finishN_within hR w x h1).trans (budget_sends (step_atMost x v _ (returns_lift.mp h)))
    | requestEngineList off p =>
      obtain ⟨x, h1, h⟩ := returns_bind.mp h
      obtain ⟨⟨s, cs⟩, h2, h⟩ := returns_bind.mp h
      have h2 := returns_lift.mp h2
      obtain ⟨cs', h3, h4⟩ := runCallsN_within hR _ v _ h
      cases h3
      refine ((finishN_within hR w x h1).trans (show InBudget B _ x v from h4)).mono ?_
      cases ht : x.station.callbacks.tx with
      | none => rw [requestEngineList_null _ _ _ ht] at h2; cases h2
      | some cb =>
        obtain ⟨f1, f2, h5, -⟩ := C20_request_engine_list x.station cb ht off p
        rw [h5] at h2
        injection h2 with h2
        injection h2 with _ h2
        rw [← h2, Nat.zero_add]
        cases x.station.callbacks.configData <;> cases p <;> exact Nat.le_refl 2
    | requestEngine e p => exact requestEngineN_within hR w v (fun w => (w.engines e).info) p h
    | requestShortInfo i p => exact requestEngineN_within hR w v (fun _ => i) p h
    | finish => exact finishN_within hR w v h
    | abort => exact finishN_within hR w v h
    | notifyReceived => exact finishN_within hR w v h
    | handle f =>
      obtain ⟨cs, h1, h2⟩ := runCallsN_within hR w v _ h
      refine h2.mono ?_
      have : Bus.sent (cs.map .call) = [] := by
        refine List.filterMap_eq_nil_iff.mpr fun e he => ?_
        obtain ⟨c, hc, rfl⟩ := List.mem_map.mp he
        have := (C14_no_tx _ _ _ _ h1 c hc).1
        cases c with
        | tx cb g => exact absurd rfl (this cb g)
        | _ => rfl
      rw [this]
      exact Nat.le_refl 0
    | parserAdd n d => exact parserAddN_within hR w v n d h
    | parserReset n => exact parserResetN_within hR w v n h
    | _ => first | exact lifted h | exact absurd rfl hop

end

theorem react_within {P : Program} {B : LogEntry → Nat} (hP : Budgeted P B) (depth : Nat) :
    ∀ w e v, (react P (nested P depth) w e).Returns v → InBudget B (B e) w v := by
  induction depth with
  | zero =>
    intro w e v h
    unfold react at h
    exact (budget_fold (cost := frameLimit) (fun u op z hz => by cases hz) _ w v h).mono (hP w e)
  | succ depth ih =>
    intro w e v h
    unfold react at h
    exact (budget_fold (cost := frameLimit) (fun u op z hz => stepN_within ih u z op hz) _ w v h).mono (hP w e)

/-- C115. A call puts at most the frames on the bus that it puts there by itself (C63), and for every callback that is called meanwhile those
which that callback asks for by its own calls. -/
theorem C115_call (P : Program) (B : LogEntry → Nat) (hP : Budgeted P B) (depth : Nat) (w v : World) (op : Op)
    (h : (stepN P (nested P depth) w op).Returns v) : InBudget B (frameLimit op) w v :=
  stepN_within (react_within hP depth) w v op h

/-- C115. The same for histories of calls. -/
theorem C115_history (P : Program) (B : LogEntry → Nat) (hP : Budgeted P B) (depth : Nat) (w v : World) (ops : List Op)
    (h : (runN P depth w ops).Returns v) : InBudget B (ops.map frameLimit).sum w v :=
  budget_fold (fun u op z hz => C115_call P B hP depth u z op hz) ops w v h

end World

/-- The node a step is about. -/
def Spec.nodeOf : BusOp → Option Nat
  | .call i _ => some i
  | .receive i => some i
  | .foreign _ => none

theorem advance_length (n : Net) (i : Nat) (w : World) (B : LogEntry → Nat) (c : Nat) (h : InBudget B c (n.nodes i) w) :
    ∃ new, ((n.advance i w).nodes i).log = (n.nodes i).log ++ new ∧ (n.advance i w).wire.length ≤ n.wire.length + c + (new.map B).sum := by
  obtain ⟨new, hn, hl⟩ := h
  refine ⟨new, ?_, ?_⟩
  · rw [(advance_wire n i w new hn).1, if_pos rfl, hn]
  · rw [(advance_wire n i w new hn).2, List.length_append, List.length_map]
    omega

/-- C115. On the bus: a step puts no more frames there than it does with callbacks that call nothing (`busLimit`), and for every callback of
that node that is called meanwhile those which it asks for. -/
theorem C115_wire (P : Nat → Program) (B : Nat → LogEntry → Nat) (hP : ∀ i, Budgeted (P i) (B i)) (depth : Nat) (n n' : Net) (o : BusOp)
    (h : (n.stepWith P depth o).Returns n') :
    ∃ new, (∀ i, nodeOf o = some i → (n'.nodes i).log = (n.nodes i).log ++ new) ∧ (nodeOf o = none → new = []) ∧
      n'.wire.length ≤ n.wire.length + busLimit o + (new.map (B ((nodeOf o).getD 0))).sum := by
  cases o with
  | call i op =>
    obtain ⟨w, h1, h2⟩ := returns_bind.mp h
    have h2 := World.returns_pure.mp h2
    subst h2
    obtain ⟨new, a, b⟩ := advance_length n i w (B i) _ (World.C115_call (P i) (B i) (hP i) depth _ _ op h1)
    exact ⟨new, fun j hj => by cases hj; exact a, nofun, b⟩
  | receive i =>
    unfold Net.stepWith at h
    dsimp only at h
    split at h
    · rw [← World.returns_pure.mp h]
      exact ⟨[], fun j _ => (List.append_nil _).symm, fun _ => rfl, Nat.le_add_right _ _⟩
    · next f q hq =>
      obtain ⟨w, h1, h2⟩ := returns_bind.mp h
      have h2 := World.returns_pure.mp h2
      subst h2
      obtain ⟨new, a, b⟩ := advance_length { n with queue := fun m => if m = i then q else n.queue m } i w (B i) _
        (World.C115_call (P i) (B i) (hP i) depth _ _ (.handle f) h1)
      exact ⟨new, fun j hj => by cases hj; exact a, nofun, b⟩
  | foreign f =>
    rw [← World.returns_pure.mp h]
    exact ⟨[], nofun, fun _ => rfl, by simp [Net.deliver, busLimit]⟩

/-- C115. If no callback sends, no more frames are on the bus than with callbacks that call nothing (C63). -/
theorem C115_silent (P : Nat → Program) (hP : ∀ i, Budgeted (P i) (fun _ => 0)) (depth : Nat) (ops : List BusOp) :
    ∀ (n n' : Net), (n.runWith P depth ops).Returns n' → n'.wire.length ≤ n.wire.length + (ops.map busLimit).sum := by
  induction ops with
  | nil => intro n n' h; rw [← World.returns_pure.mp h]; exact Nat.le_refl _
  | cons o ops ih =>
    intro n n' h
    unfold Net.runWith at h
    rw [List.foldlM_cons] at h
    obtain ⟨x, h1, h2⟩ := returns_bind.mp h
    obtain ⟨new, -, -, hl⟩ := C115_wire P (fun _ _ => 0) hP depth n x o h1
    have := ih x n' h2
    have hz : (new.map fun _ => 0).sum = 0 := by induction new <;> simp_all
    rw [List.map_cons, List.sum_cons]
    omega

/-! ## Concrete cases -/

/-- What `echo` may send. -/
def echoBudget : LogEntry → Nat
  | .call (.setLocoVelocity ..) => 1
  | _ => 0

theorem echo_budgeted : Budgeted echo echoBudget := by
  intro w e
  unfold echo echoBudget
  split <;> simp [frameLimit]

/-- The budget is used up: a received frame about a velocity makes node 1 call its engine callback once and send one frame. With a budget of
nothing for each callback the bound would be false of `echo`. -/
example : livelyOutcome (fun _ => echo) 1 smallNet [.call 0 (.sendVelocity { uid := 5#32 } 9#16)]
      (fun n => n.wire.length = 1 ∧ (n.nodes 1).log.length = (smallNet.nodes 1).log.length) = true ∧
    livelyOutcome (fun _ => echo) 1 smallNet [.call 0 (.sendVelocity { uid := 5#32 } 9#16), .receive 1]
      (fun n => n.wire.length = 2 ∧ (((n.nodes 1).log.drop (smallNet.nodes 1).log.length).map echoBudget).sum = 1) = true ∧
    ¬ Budgeted echo (fun _ => 0) :=
  ⟨by decide +kernel, by decide +kernel, fun h => absurd (h (smallNet.nodes 0) (.call (.setLocoVelocity 0 5#32 9#16))) (by decide)⟩

end RR32
