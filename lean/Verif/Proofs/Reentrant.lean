import Verif.Model.Reentrant
import Verif.Proofs.Request

/-! # Runs with callbacks that call back -/

set_option autoImplicit false

namespace RR32

variable {α β : Type}

/-! ## Runs -/

theorem run_lift (r : Res α) : (Run.lift r).run = some r := rfl
theorem run_pure (a : α) : (pure a : Run α).run = some (.ok a) := rfl

theorem run_bind_none {x : Run α} {f : α → Run β} (h : x.run = none) : (x >>= f).run = none := by
  rw [ExceptT.run_bind, h]; rfl
theorem run_bind_error {x : Run α} {f : α → Run β} {e : Fault} (h : x.run = some (.error e)) : (x >>= f).run = some (.error e) := by
  rw [ExceptT.run_bind, h]; rfl
theorem run_bind_ok {x : Run α} {f : α → Run β} {a : α} (h : x.run = some (.ok a)) : (x >>= f).run = (f a).run := by
  rw [ExceptT.run_bind, h]; rfl

/-- The run ends: the stack is not exhausted. -/
def Run.Ends (r : Run α) : Prop := r.run ≠ none

theorem ends_lift (r : Res α) : (Run.lift r).Ends := by intro h; cases h
theorem ends_pure (a : α) : (pure a : Run α).Ends := by intro h; cases h

theorem ends_bind {x : Run α} {f : α → Run β} (h : x.Ends) (hf : ∀ a, x.run = some (.ok a) → (f a).Ends) : (x >>= f).Ends := by
  intro hn
  cases hx : x.run with
  | none => exact h hx
  | some r =>
    cases r with
    | error e => rw [run_bind_error hx] at hn; cases hn
    | ok a => rw [run_bind_ok hx] at hn; exact hf a hx hn

theorem ends_foldlM {γ : Type} (f : β → γ → Run β) (l : List γ) (b : β) (h : ∀ x ∈ l, ∀ b, (f b x).Ends) : (l.foldlM f b).Ends := by
  induction l generalizing b with
  | nil => exact ends_pure b
  | cons x l ih =>
    rw [List.foldlM_cons]
    exact ends_bind (h x (List.mem_cons_self ..) b) (fun b' _ => ih b' (fun y hy => h y (List.mem_cons_of_mem _ hy)))

/-- The second run ends at least when the first does, with the same outcome. -/
def Run.Below (r s : Run α) : Prop := r.run = none ∨ r.run = s.run

theorem below_refl (r : Run α) : r.Below r := Or.inr rfl

theorem below_bind {x y : Run α} {f g : α → Run β} (h : x.Below y) (hf : ∀ a, (f a).Below (g a)) : (x >>= f).Below (y >>= g) := by
  rcases h with h | h
  · exact Or.inl (run_bind_none h)
  · cases hx : x.run with
    | none => exact Or.inl (run_bind_none hx)
    | some r =>
      cases r with
      | error e => exact Or.inr (by rw [run_bind_error hx, run_bind_error (h ▸ hx)])
      | ok a =>
        unfold Run.Below
        rw [run_bind_ok hx, run_bind_ok (h ▸ hx)]
        exact hf a

theorem below_foldlM {γ : Type} (f g : β → γ → Run β) (h : ∀ b x, (f b x).Below (g b x)) (l : List γ) (b : β) :
    (l.foldlM f b).Below (l.foldlM g b) := by
  induction l generalizing b with
  | nil => exact below_refl _
  | cons x l ih =>
    rw [List.foldlM_cons, List.foldlM_cons]
    exact below_bind (h b x) ih

/-! ## What one call logs -/

/-- The end of a stream an action is. -/
def ConsumerAction.end? : ConsumerAction → Option Bool
  | .consume .. => none
  | .complete => some true
  | .aborted => some false

/-- The end callback of a consumer. -/
def Consumer.callback : Consumer → Ptr
  | .loco l => l.streamEndCallback
  | .list l => l.streamEndCallback
  | .app => .null

namespace World

theorem endCalls_log {σ : Type} (c : Nat) (f : σ → Seen) (p : Ptr) (o : Option Nat) (hp : p.read = .ok o) (b : Bool) (s : σ) :
    endLog c f (endCalls o b s) = [] ∨ ∃ cb seen, p = .obj cb ∧ endLog c f (endCalls o b s) = [.streamEnd cb c b seen] := by
  cases o with
  | none => exact Or.inl rfl
  | some cb =>
    refine Or.inr ⟨cb, f s, ?_, rfl⟩
    cases p <;> simp only [Ptr.read] at hp <;> cases hp
    rfl

/-- A call on a consumer logs itself, and then at most the end callback of that consumer; it changes neither parsers nor station nor the
callbacks of consumers. -/
theorem callConsumer_log (w w' : World) (c : ConsumerCall) (h : w.callConsumer c = .ok w') :
    w'.parsers = w.parsers ∧ w'.station = w.station ∧ w'.pf = w.pf ∧
      (∀ m, (w'.consumers m).callback = (w.consumers m).callback) ∧
      ∃ l, w'.log = w.log ++ [.consumer c] ++ l ∧
        (l = [] ∨ ∃ cb b seen, (w.consumers c.consumer).callback = .obj cb ∧ c.action.end? = some b ∧ l = [.streamEnd cb c.consumer b seen]) := by
  have keep : ∀ l, Consumer.list l = w.consumers c.consumer → ∀ l' : LocoListConsumer, l'.streamEndCallback = l.streamEndCallback → ∀ m,
      (if m = c.consumer then Consumer.list l' else w.consumers m).callback = (w.consumers m).callback := by
    intro l hl l' h m
    by_cases hm : m = c.consumer
    · rw [if_pos hm, hm, ← hl]; exact h
    · rw [if_neg hm]
  unfold callConsumer at h
  simp only [logAll] at h
  cases hc : w.consumers c.consumer with
  | app =>
    rw [hc] at h
    simp only at h
    cases h
    exact ⟨rfl, rfl, rfl, fun _ => rfl, [], (List.append_nil _).symm, Or.inl rfl⟩
  | loco l =>
    rw [hc] at h
    cases ha : c.action with
    | consume s k v =>
      rw [ha] at h
      obtain ⟨es, h1, h2⟩ := bind_ok h
      cases h2
      exact ⟨rfl, rfl, rfl, fun _ => rfl, [], (List.append_nil _).symm, Or.inl rfl⟩
    | complete =>
      rw [ha] at h
      obtain ⟨⟨es, ends⟩, h1, h2⟩ := bind_ok h
      cases h2
      refine ⟨rfl, rfl, rfl, fun _ => rfl, endLog c.consumer .engine ends, rfl, ?_⟩
      obtain ⟨o, h3, h4⟩ := bind_ok h1
      cases o with
      | none => cases h4; exact Or.inl rfl
      | some n =>
        obtain ⟨-, -, h5⟩ := bind_ok h4
        obtain ⟨o, h6, h7⟩ := bind_ok h5
        cases h7
        rcases endCalls_log c.consumer Seen.engine l.streamEndCallback o h6 true ((w.engines n).setAvailability .FULL_DETAILS) with h | ⟨cb, seen, h8, h9⟩
        · exact Or.inl h
        · exact Or.inr ⟨cb, true, seen, h8, rfl, h9⟩
    | aborted =>
      rw [ha] at h
      obtain ⟨ends, h1, h2⟩ := bind_ok h
      cases h2
      refine ⟨rfl, rfl, rfl, fun _ => rfl, endLog c.consumer (fun _ => .nothing) ends, rfl, ?_⟩
      obtain ⟨o, h3, h4⟩ := bind_ok h1
      cases h4
      rcases endCalls_log c.consumer (fun _ => Seen.nothing) l.streamEndCallback o h3 false () with h | ⟨cb, seen, h8, h9⟩
      · exact Or.inl h
      · exact Or.inr ⟨cb, false, seen, h8, rfl, h9⟩
  | list l =>
    rw [hc] at h
    cases ha : c.action with
    | consume s k v =>
      rw [ha] at h
      obtain ⟨l', h1, h2⟩ := bind_ok h
      cases h2
      refine ⟨rfl, rfl, rfl, keep l hc.symm l' ?_, [], (List.append_nil _).symm, Or.inl rfl⟩
      exact list_callback h1
    | complete =>
      rw [ha] at h
      obtain ⟨⟨l', ends⟩, h1, h2⟩ := bind_ok h
      cases h2
      obtain ⟨o, h6, h7⟩ := bind_ok h1
      cases h7
      refine ⟨rfl, rfl, rfl, keep l hc.symm _ rfl, endLog c.consumer .list _, rfl, ?_⟩
      rcases endCalls_log c.consumer Seen.list l.streamEndCallback o h6 true { l with streamComplete := some true } with h | ⟨cb, seen, h8, h9⟩
      · exact Or.inl h
      · exact Or.inr ⟨cb, true, seen, h8, rfl, h9⟩
    | aborted =>
      rw [ha] at h
      obtain ⟨⟨l', ends⟩, h1, h2⟩ := bind_ok h
      cases h2
      obtain ⟨o, h6, h7⟩ := bind_ok h1
      cases h7
      refine ⟨rfl, rfl, rfl, keep l hc.symm _ rfl, endLog c.consumer .list _, rfl, ?_⟩
      rcases endCalls_log c.consumer Seen.list l.streamEndCallback o h6 false l.reset with h | ⟨cb, seen, h8, h9⟩
      · exact Or.inl h
      · exact Or.inr ⟨cb, false, seen, h8, rfl, h9⟩

theorem drop_log {w w' : World} {c : ConsumerCall} {l : List LogEntry} (h : w'.log = w.log ++ [.consumer c] ++ l) :
    w'.log.drop w.log.length = .consumer c :: l := by
  rw [h, List.append_assoc, List.drop_append_of_le_length (Nat.le_refl _), List.drop_length]; rfl

/-- What follows a call on a consumer: nothing, or what its end callback does. -/
theorem callConsumer_reactions (R : React) (w w' : World) (c : ConsumerCall) (h : w.callConsumer c = .ok w') :
    reactions R (w'.log.drop w.log.length) = [] ∨ ∃ cb b, (w.consumers c.consumer).callback = .obj cb ∧ c.action.end? = some b ∧
      reactions R (w'.log.drop w.log.length) = R cb b := by
  obtain ⟨-, -, -, -, l, h1, h2⟩ := callConsumer_log w w' c h
  rw [drop_log h1]
  rcases h2 with rfl | ⟨cb, b, seen, h3, h4, rfl⟩
  · exact Or.inl rfl
  · exact Or.inr ⟨cb, b, h3, h4, by simp [reactions]⟩

/-! ## More depth does not change an outcome -/

section
variable {R : React} {k k' : World → Reaction → Run World} (hk : ∀ w r, (k w r).Below (k' w r))
include hk

theorem below_callConsumerR (w : World) (c : ConsumerCall) : (callConsumerR R k w c).Below (callConsumerR R k' w c) :=
  below_bind (below_refl _) (fun _ => below_foldlM _ _ hk _ _)

theorem below_parserResetR (w : World) (n : Nat) : (parserResetR R k w n).Below (parserResetR R k' w n) :=
  below_bind (below_foldlM _ _ (below_callConsumerR hk) _ _) (fun _ => below_refl _)

theorem below_parserAddR (w : World) (n : Nat) (d : Data) : (parserAddR R k w n d).Below (parserAddR R k' w n d) := by
  unfold parserAddR
  split
  · exact below_parserResetR hk w n
  · exact below_bind (below_refl _) (fun r => below_foldlM _ _ (below_callConsumerR hk) _ _)

theorem below_finishR (w : World) : (finishR R k w).Below (finishR R k' w) := by
  unfold finishR
  split
  · exact below_refl _
  · exact below_bind (below_parserResetR hk w _) (fun _ => below_refl _)

end

theorem below_perform (R : React) (depth : Nat) (w : World) (r : Reaction) : (perform R depth w r).Below (perform R (depth + 1) w r) := by
  induction depth generalizing w r with
  | zero => exact Or.inl rfl
  | succ depth ih =>
    cases r with
    | finish => exact below_finishR ih w
    | requestList off p => exact below_bind (below_finishR ih w) (fun _ => below_refl _)
    | attach n c => exact below_refl _

theorem below_stepR (R : React) (depth : Nat) (w : World) (op : Op) : (stepR R depth w op).Below (stepR R (depth + 1) w op) := by
  have hk := below_perform R depth
  have hc : ∀ w c, (runCallR R depth w c).Below (runCallR R (depth + 1) w c) := by
    intro w c
    cases c with
    | cfgAdd n d => exact below_parserAddR hk w n d
    | cfgReset n => exact below_parserResetR hk w n
    | _ => exact below_refl _
  cases op with
  | begin_ _ _ => exact below_bind (below_finishR hk w) (fun _ => below_refl _)
  | requestEngineList _ _ => exact below_bind (below_finishR hk w) (fun _ => below_refl _)
  | finish => exact below_finishR hk w
  | abort => exact below_finishR hk w
  | notifyReceived => exact below_finishR hk w
  | handle f => exact below_bind (below_refl _) (fun _ => below_foldlM _ _ hc _ _)
  | parserAdd n d => exact below_parserAddR hk w n d
  | parserReset n => exact below_parserResetR hk w n
  | _ => exact below_refl _

theorem below_runR (R : React) (depth : Nat) (ops : List Op) (w : World) : (runR R depth w ops).Below (runR R (depth + 1) w ops) :=
  below_foldlM _ _ (below_stepR R depth) ops w

/-- The outcome of a history that ends does not depend on the size of the stack. -/
theorem runR_depth (R : React) (ops : List Op) (w : World) (a b : Nat) (ha : (runR R a w ops).Ends) (hab : a ≤ b) :
    (runR R b w ops).run = (runR R a w ops).run := by
  induction hab with
  | refl => rfl
  | step _ ih =>
    rcases below_runR R _ ops w with h | h
    · exact absurd (ih ▸ h) ha
    · rw [← h, ih]

/-! ## Streams that are not aborted by a reset -/

/-- Reactions that do not end or start requests. -/
def _root_.RR32.Reaction.isAttach : Reaction → Bool
  | .attach _ _ => true
  | _ => false

/-- Callbacks that do nothing to requests when a stream is aborted. -/
def _root_.RR32.React.CalmOnAbort (R : React) : Prop := ∀ cb, ∀ r ∈ R cb false, r.isAttach = true

section
variable {R : React} {k : World → Reaction → Run World}

theorem ends_callConsumerR (w : World) (c : ConsumerCall) (h : ∀ cb b, c.action.end? = some b → ∀ r ∈ R cb b, ∀ w, (k w r).Ends) :
    (callConsumerR R k w c).Ends := by
  refine ends_bind (ends_lift _) (fun w' hw' => ends_foldlM _ _ _ ?_)
  rw [run_lift] at hw'
  injection hw' with hw'
  rcases callConsumer_reactions R w w' c hw' with h1 | ⟨cb, b, -, h2, h3⟩
  · rw [h1]; intro x hx; cases hx
  · rw [h3]; exact h cb b h2

theorem ends_parserResetR (w : World) (n : Nat) (h : ∀ cb, ∀ r ∈ R cb false, ∀ w, (k w r).Ends) : (parserResetR R k w n).Ends := by
  refine ends_bind (ends_foldlM _ _ _ (fun c hc w => ends_callConsumerR w c ?_)) (fun _ _ => ends_bind (ends_lift _) (fun _ _ => ends_pure _))
  have : c.action = .aborted := by
    unfold StreamParser.resetNotify StreamParser.notify at hc
    split at hc
    · cases hp : (World.parsers _ n).consumer with
      | none => rw [hp] at hc; cases hc
      | some m => rw [hp] at hc; rw [List.mem_singleton.mp hc]
    · cases hc
  intro cb b hb
  rw [this] at hb
  cases hb
  exact h cb

theorem ends_finishR (w : World) (h : ∀ cb, ∀ r ∈ R cb false, ∀ w, (k w r).Ends) : (finishR R k w).Ends := by
  unfold finishR
  split
  · exact ends_pure _
  · exact ends_bind (ends_parserResetR w _ h) (fun _ _ => ends_pure _)

theorem ends_parserAddR (w : World) (n : Nat) (d : Data) (h : ∀ cb b, ∀ r ∈ R cb b, ∀ w, (k w r).Ends) : (parserAddR R k w n d).Ends := by
  unfold parserAddR
  split
  · exact ends_parserResetR w n (fun cb => h cb false)
  · exact ends_bind (ends_lift _) (fun _ _ => ends_foldlM _ _ _ (fun c _ w => ends_callConsumerR w c (fun cb b _ => h cb b)))

end

theorem ends_attach (R : React) (depth : Nat) (w : World) (r : Reaction) (h : r.isAttach = true) : (perform R (depth + 1) w r).Ends := by
  cases r with
  | finish => cases h
  | requestList _ _ => cases h
  | attach n c => exact ends_lift _

theorem ends_perform (R : React) (hR : R.CalmOnAbort) (depth : Nat) (w : World) (r : Reaction) : (perform R (depth + 2) w r).Ends := by
  have h : ∀ cb, ∀ r ∈ R cb false, ∀ w, (perform R (depth + 1) w r).Ends := fun cb r hr w => ends_attach R depth w r (hR cb r hr)
  cases r with
  | finish => exact ends_finishR w h
  | requestList off p => exact ends_bind (ends_finishR w h) (fun _ _ => ends_lift _)
  | attach n c => exact ends_lift _

theorem ends_stepR (R : React) (hR : R.CalmOnAbort) (depth : Nat) (w : World) (op : Op) : (stepR R (depth + 2) w op).Ends := by
  have h : ∀ cb b, ∀ r ∈ R cb b, ∀ w, (perform R (depth + 2) w r).Ends := fun _ _ r _ w => ends_perform R hR depth w r
  have h' : ∀ cb, ∀ r ∈ R cb false, ∀ w, (perform R (depth + 2) w r).Ends := fun cb => h cb false
  have hc : ∀ w c, (runCallR R (depth + 2) w c).Ends := by
    intro w c
    cases c with
    | cfgAdd n d => exact ends_parserAddR w n d h
    | cfgReset n => exact ends_parserResetR w n h'
    | _ => exact ends_lift _
  cases op with
  | begin_ _ _ => exact ends_bind (ends_finishR w h') (fun _ _ => ends_lift _)
  | requestEngineList _ _ => exact ends_bind (ends_finishR w h') (fun _ _ => ends_lift _)
  | finish => exact ends_finishR w h'
  | abort => exact ends_finishR w h'
  | notifyReceived => exact ends_finishR w h'
  | handle f => exact ends_bind (ends_lift _) (fun _ _ => ends_foldlM _ _ _ (fun c _ w => hc w c))
  | parserAdd n d => exact ends_parserAddR w n d h
  | parserReset n => exact ends_parserResetR w n h'
  | _ => exact ends_lift _

/-! ## Calls that end no stream -/

/-- A call on a consumer without a reaction is the plain call. -/
theorem callConsumerR_plain (R : React) (k : World → Reaction → Run World) (w : World) (c : ConsumerCall)
    (h : ∀ w', w.callConsumer c = .ok w' → reactions R (w'.log.drop w.log.length) = []) :
    (callConsumerR R k w c).run = some (w.callConsumer c) := by
  cases hc : w.callConsumer c with
  | error e => exact run_bind_error (by rw [hc]; rfl)
  | ok w' =>
    refine (run_bind_ok (a := w') (by rw [hc]; rfl)).trans ?_
    rw [h w' hc]
    rfl

theorem reactions_append (R : React) (a b : List LogEntry) : reactions R (a ++ b) = reactions R a ++ reactions R b := by
  simp [reactions]

/-- Entries end no stream. -/
theorem reactions_entry (R : React) (w w' : World) (c : ConsumerCall) (hc : c.action.end? = none) (h : w.callConsumer c = .ok w') :
    reactions R (w'.log.drop w.log.length) = [] := by
  rcases callConsumer_reactions R w w' c h with h | ⟨cb, b, -, h, -⟩
  · exact h
  · rw [hc] at h; cases h

/-- Calls on consumers append to the log. -/
theorem callConsumers_log (cs : List ConsumerCall) (w w' : World) (h : w.callConsumers cs = .ok w') : ∃ l, w'.log = w.log ++ l := by
  induction cs generalizing w with
  | nil => cases h; exact ⟨[], (List.append_nil _).symm⟩
  | cons c cs ih =>
    rw [callConsumers_cons] at h
    obtain ⟨v, h1, h2⟩ := bind_ok h
    obtain ⟨-, -, -, -, l1, h3, -⟩ := callConsumer_log w v c h1
    obtain ⟨l2, h4⟩ := ih v h2
    exact ⟨_, by rw [h4, h3, List.append_assoc, List.append_assoc]⟩

theorem callConsumersR_plain (R : React) (k : World → Reaction → Run World) (cs : List ConsumerCall) (w : World)
    (h : (∀ cb b, R cb b = []) ∨ ∀ c ∈ cs, c.action.end? = none) :
    (cs.foldlM (callConsumerR R k) w).run = some (w.callConsumers cs) ∧
      ∀ w', w.callConsumers cs = .ok w' → reactions R (w'.log.drop w.log.length) = [] := by
  induction cs generalizing w with
  | nil => exact ⟨rfl, fun w' hw => by cases hw; rw [List.drop_length]; rfl⟩
  | cons c cs ih =>
    have hc : ∀ w', w.callConsumer c = .ok w' → reactions R (w'.log.drop w.log.length) = [] := by
      intro w' hw
      rcases h with h | h
      · rcases callConsumer_reactions R w w' c hw with h' | ⟨cb, b, -, -, h'⟩
        · exact h'
        · rw [h', h]
      · exact reactions_entry R w w' c (h c (List.mem_cons_self ..)) hw
    have hrest : (∀ cb b, R cb b = []) ∨ ∀ c ∈ cs, c.action.end? = none :=
      h.imp_right (fun h x hx => h x (List.mem_cons_of_mem _ hx))
    rw [List.foldlM_cons, callConsumers_cons]
    cases hw : w.callConsumer c with
    | error e => exact ⟨run_bind_error (by rw [callConsumerR_plain R k w c hc, hw]), fun w' hw' => by cases hw'⟩
    | ok v =>
      obtain ⟨h1, h2⟩ := ih v hrest
      refine ⟨(run_bind_ok (by rw [callConsumerR_plain R k w c hc, hw])).trans h1, fun w' hw' => ?_⟩
      obtain ⟨-, -, -, -, l1, h3, -⟩ := callConsumer_log w v c hw
      obtain ⟨l2, h4⟩ := callConsumers_log cs v w' hw'
      have e1 := hc v hw
      have e2 := h2 w' hw'
      have hv : v.log.drop w.log.length = [.consumer c] ++ l1 := drop_log h3
      have hw2 : w'.log.drop v.log.length = l2 := by rw [h4, List.drop_append_of_le_length (Nat.le_refl _), List.drop_length]; rfl
      have : w'.log.drop w.log.length = ([.consumer c] ++ l1) ++ l2 := by
        rw [h4, List.drop_append_of_le_length (by rw [h3]; simp only [List.length_append]; omega), hv]
      rw [this, reactions_append, ← hv, ← hw2, e1, e2]
      rfl

/-! ## The station while a consumer is called -/

/-- Assign to the station. -/
def withStation (w : World) (s : Station) : World := { w with station := s }

theorem callConsumer_station (w : World) (s : Station) (c : ConsumerCall) :
    (w.withStation s).callConsumer c = (w.callConsumer c).map (fun v => v.withStation s) := by
  unfold World.callConsumer
  simp only [withStation, World.logAll]
  cases w.consumers c.consumer with
  | app => rfl
  | loco l =>
    cases c.action with
    | consume a b d =>
      simp only [bind]
      cases l.consumeConfigData w.pf w.engines a b d <;> rfl
    | complete =>
      simp only [bind]
      cases l.setStreamComplete w.engines <;> rfl
    | aborted =>
      simp only [bind]
      cases l.setStreamAborted <;> rfl
  | list l =>
    cases c.action with
    | consume a b d =>
      simp only [bind]
      cases l.consumeConfigData w.pf a b d <;> rfl
    | complete =>
      simp only [bind]
      cases l.setStreamComplete <;> rfl
    | aborted =>
      simp only [bind]
      cases l.setStreamAborted <;> rfl

theorem callConsumers_station (w : World) (s : Station) (cs : List ConsumerCall) :
    (w.withStation s).callConsumers cs = (w.callConsumers cs).map (fun v => v.withStation s) := by
  induction cs generalizing w with
  | nil => rfl
  | cons c cs ih =>
    rw [World.callConsumers_cons, World.callConsumers_cons, callConsumer_station]
    cases w.callConsumer c with
    | error e => rfl
    | ok v => exact ih v

theorem parserReset_station (w : World) (s : Station) (n : Nat) :
    (w.withStation s).parserReset n = (w.parserReset n).map (fun v => v.withStation s) := by
  unfold parserReset
  show ((w.parsers n).reset >>= _) = _
  cases (w.parsers n).reset with
  | error e => rfl
  | ok r => exact callConsumers_station (w.setParser n r.1) s r.2

/-- Resetting a parser: the notification, if there is one, and then the clearing. -/
theorem parserReset_eq (w : World) (n : Nat) (v : World) :
    w.parserReset n = .ok v ↔ ∃ w' p, w.callConsumers (w.parsers n).resetNotify = .ok w' ∧ (w.parsers n).resetClear = .ok p ∧ v = w'.setParser n p := by
  unfold parserReset StreamParser.reset
  cases hp : (w.parsers n).resetClear with
  | error e =>
    constructor
    · intro h; cases h
    · rintro ⟨_, _, -, h, -⟩; cases h
  | ok p =>
    show (w.setParser n p).callConsumers _ = _ ↔ _
    rw [callConsumers_setParser]
    cases hc : w.callConsumers (w.parsers n).resetNotify with
    | error e =>
      constructor
      · intro h; cases h
      · rintro ⟨_, _, h, -⟩; cases h
    | ok w' =>
      constructor
      · intro h; cases h; exact ⟨w', p, rfl, rfl, rfl⟩
      · rintro ⟨a, b, h1, h2, rfl⟩; cases h1; cases h2; rfl

/-- Resetting a parser, if nobody reacts. -/
theorem parserResetR_plain (R : React) (k : World → Reaction → Run World) (w : World) (n : Nat)
    (h : (∀ cb b, R cb b = []) ∨ (w.parsers n).resetNotify = []) (v : World) :
    (parserResetR R k w n).Returns v ↔ w.parserReset n = .ok v := by
  rw [parserReset_eq]
  unfold parserResetR Run.Returns
  obtain ⟨h1, -⟩ := callConsumersR_plain R k (w.parsers n).resetNotify w (h.imp_right (fun h c hc => by rw [h] at hc; cases hc))
  cases hc : w.callConsumers (w.parsers n).resetNotify with
  | error e =>
    rw [run_bind_error (by rw [h1, hc])]
    constructor
    · intro h; cases h
    · rintro ⟨_, _, h, -⟩; cases h
  | ok w' =>
    rw [run_bind_ok (by rw [h1, hc])]
    obtain ⟨-, hpar⟩ := World.callConsumers_quiet _ _ _ hc
    rw [hpar]
    cases hp : (w.parsers n).resetClear with
    | error e =>
      rw [run_bind_error (by rw [run_lift])]
      constructor
      · intro h; cases h
      · rintro ⟨_, _, -, h, -⟩; cases h
    | ok p =>
      rw [run_bind_ok (by rw [run_lift])]
      constructor
      · intro h; cases h; exact ⟨w', p, rfl, rfl, rfl⟩
      · rintro ⟨a, b, h1, h2, rfl⟩; cases h1; cases h2; rfl

/-- The station without a registered parser. -/
def _root_.RR32.Station.free (s : Station) : Station := { s with callbacks := { s.callbacks with configData := none } }

theorem step_finish_none (w : World) (h : w.station.callbacks.configData = none) : w.step .finish = .ok w := by
  show w.stationUpdate (.ok w.station.FinishCurrentConfigRequest) = _
  unfold Station.FinishCurrentConfigRequest
  rw [h]
  rfl

theorem step_finish_some (w : World) (n : Nat) (h : w.station.callbacks.configData = some n) :
    w.step .finish = (w.parserReset n).map (fun v => v.withStation w.station.free) := by
  show w.stationUpdate (.ok w.station.FinishCurrentConfigRequest) = _
  unfold Station.FinishCurrentConfigRequest
  rw [h]
  show (w.withStation w.station.free).runCalls [.cfgReset n] = _
  rw [show (w.withStation w.station.free).runCalls [.cfgReset n] = ((w.withStation w.station.free).parserReset n).bind .ok from rfl,
    parserReset_station]
  cases w.parserReset n <;> rfl

theorem register_free (w v : World) (n : Nat) (h : w.parserReset n = .ok v) : v.withStation w.station.free = v.register none := by
  rw [withStation, register, ← (parserReset_quiet w v n h).1]
  rfl

/-- Ending the request, if nobody reacts. -/
theorem finishR_plain (R : React) (k : World → Reaction → Run World) (w : World)
    (h : (∀ cb b, R cb b = []) ∨ ∀ n, w.station.callbacks.configData = some n → (w.parsers n).resetNotify = []) (v : World) :
    (finishR R k w).Returns v ↔ w.step .finish = .ok v := by
  unfold finishR
  cases hn : w.station.callbacks.configData with
  | none =>
    rw [step_finish_none w hn]
    constructor
    · intro h; cases h; rfl
    · intro h; cases h; rfl
  | some n =>
    have hp := parserResetR_plain R k w n (h.imp_right (fun h => h n hn))
    rw [step_finish_some w n hn]
    show ((parserResetR R k w n >>= fun w => pure (w.register none)) : Run World).run = _ ↔ _
    constructor
    · intro hv
      cases hr : (parserResetR R k w n).run with
      | none => rw [run_bind_none hr] at hv; cases hv
      | some r =>
        cases r with
        | error e => rw [run_bind_error hr] at hv; cases hv
        | ok u =>
          have hu := (hp u).mp hr
          rw [run_bind_ok hr] at hv
          cases hv
          rw [hu, ← register_free w u n hu]
          rfl
    · intro hv
      cases hr : w.parserReset n with
      | error e => rw [hr] at hv; cases hv
      | ok u =>
        rw [hr] at hv
        cases hv
        rw [run_bind_ok ((hp u).mpr hr), ← register_free w u n hr]
        rfl

/-! ## The shape of the calls of a packet -/

theorem addMessage_shape (p q : StreamParser) (d : Data) (cs : List ConsumerCall) (h : p.addMessage d = .ok (q, cs)) (hr : resets p d = false) :
    ∃ pre tail, cs = pre ++ tail ∧ (∀ c ∈ pre, c.action.end? = none) ∧
      (tail = [] ∨ (q.state = .STREAM_DONE ∨ q.state = .IDLE) ∧ ∃ c, tail = [c]) := by
  have hnot : ∀ (p : StreamParser) (a : ConsumerAction), p.notify a = [] ∨ ∃ c, p.notify a = [c] := by
    intro p a
    unfold StreamParser.notify
    split
    · exact Or.inl rfl
    · exact Or.inr ⟨_, rfl⟩
  have hpre : ∀ evs : List ParseEvent, ∀ c ∈ evs.map StreamParser.ofParseEvent, c.action.end? = none := by
    intro evs c hc
    obtain ⟨e, -, rfl⟩ := List.mem_map.mp hc
    rfl
  unfold StreamParser.addMessage at h
  unfold resets at hr
  cases hs : p.state with
  | IDLE => rw [hs] at h; cases h; exact ⟨[], [], rfl, fun c hc => (by cases hc), Or.inl rfl⟩
  | STREAM_DONE => rw [hs] at h; cases h; exact ⟨[], [], rfl, fun c hc => (by cases hc), Or.inl rfl⟩
  | WAITING_FIRST_PACKET =>
    rw [hs] at h hr
    simp only [decide_eq_false_iff_not, not_and_or, not_not] at hr
    simp only [StreamParser.addFirst, if_pos hr] at h
    obtain ⟨c, -, h⟩ := bind_ok h
    split at h
    · cases h; exact ⟨[], [], rfl, fun c hc => (by cases hc), Or.inl rfl⟩
    · injection h with h
      injection h with h1 h2
      subst h1 h2
      refine ⟨[], _, rfl, fun c hc => (by cases hc), ?_⟩
      rcases hnot _ .complete with h | h
      · exact Or.inl h
      · exact Or.inr ⟨Or.inl rfl, h⟩
  | WAITING_DATA_PACKET =>
    rw [hs] at h hr
    simp only [decide_eq_false_iff_not, not_not] at hr
    simp only [StreamParser.addData, if_neg (not_not.mpr hr)] at h
    obtain ⟨c, -, h⟩ := bind_ok h
    obtain ⟨⟨t, evs⟩, -, h⟩ := bind_ok h
    simp only at h
    split at h
    · split at h
      · injection h with h
        injection h with h1 h2
        subst h1 h2
        refine ⟨_, _, rfl, hpre evs, ?_⟩
        rcases hnot _ .complete with h | h
        · exact Or.inl h
        · exact Or.inr ⟨Or.inl rfl, h⟩
      · injection h with h
        injection h with h1 h2
        subst h1 h2
        refine ⟨_, _, rfl, hpre evs, ?_⟩
        rcases hnot _ .aborted with h | h
        · exact Or.inl h
        · exact Or.inr ⟨Or.inr rfl, h⟩
    · injection h with h
      injection h with h1 h2
      subst h1 h2
      exact ⟨_, [], (List.append_nil _).symm, hpre evs, Or.inl rfl⟩

/-- A packet that does not reset the parser: the plain effects, and then the reactions. -/
theorem parserAddR_eq (R : React) (k : World → Reaction → Run World) (w : World) (n : Nat) (d : Data) (hr : resets (w.parsers n) d = false) (u : World)
    (hu : w.parserAdd n d = .ok u) :
    (parserAddR R k w n d).run = ((reactions R (u.log.drop w.log.length)).foldlM k u : Run World).run ∧
      (reactions R (u.log.drop w.log.length) ≠ [] → (u.parsers n).state = .STREAM_DONE ∨ (u.parsers n).state = .IDLE) := by
  unfold parserAdd at hu
  obtain ⟨⟨q, cs⟩, h1, h2⟩ := bind_ok hu
  obtain ⟨pre, tail, rfl, h3, h4⟩ := addMessage_shape _ q d _ h1 hr
  have hq : (u.parsers n).state = q.state := by
    obtain ⟨-, hpar⟩ := World.callConsumers_quiet _ _ _ h2
    rw [hpar, setParser_get]
  have h2 : (w.setParser n q).callConsumers (pre ++ tail) = .ok u := h2
  rw [callConsumers_append] at h2
  obtain ⟨v, h5, h6⟩ := bind_ok h2
  obtain ⟨a1, a2⟩ := callConsumersR_plain R k pre (w.setParser n q) (Or.inr h3)
  have hrun : (parserAddR R k w n d).run = (tail.foldlM (callConsumerR R k) v).run := by
    unfold parserAddR
    rw [if_neg (by rw [hr]; simp)]
    refine (run_bind_ok (by rw [run_lift, h1])).trans ?_
    show ((pre ++ tail).foldlM (callConsumerR R k) (w.setParser n q)).run = _
    rw [List.foldlM_append]
    exact run_bind_ok (by rw [a1, h5])
  have hv := a2 v h5
  rcases h4 with rfl | ⟨h4, c, rfl⟩
  · cases h6
    refine ⟨?_, fun h => absurd hv h⟩
    rw [hrun, show reactions R (u.log.drop w.log.length) = [] from hv]
    rfl
  · obtain ⟨u', h7, h8⟩ := bind_ok (show (v.callConsumer c).bind (fun v => v.callConsumers []) = .ok u from h6)
    cases h8
    obtain ⟨l1, h9⟩ := callConsumers_log pre _ v h5
    obtain ⟨-, -, -, -, l2, h10, -⟩ := callConsumer_log v u c h7
    have hlog : u.log.drop w.log.length = v.log.drop (w.setParser n q).log.length ++ u.log.drop v.log.length := by
      rw [show (w.setParser n q).log = w.log from rfl, drop_log h10, h10, List.append_assoc,
        List.drop_append_of_le_length (by rw [h9]; simp [World.setParser])]
      rfl
    have hre : reactions R (u.log.drop w.log.length) = reactions R (u.log.drop v.log.length) := by rw [hlog, reactions_append, hv]; rfl
    refine ⟨?_, fun _ => by rw [hq]; exact h4⟩
    rw [hrun, hre, List.foldlM_cons]
    have hlast : (callConsumerR R k v c).run = ((reactions R (u.log.drop v.log.length)).foldlM k u : Run World).run :=
      (run_bind_ok (by rw [h7]; rfl))
    generalize hX : ((reactions R (u.log.drop v.log.length)).foldlM k u : Run World) = X at hlast
    cases hx : X.run with
    | none => rw [run_bind_none (hlast.trans hx)]
    | some r =>
      cases r with
      | error e => rw [run_bind_error (hlast.trans hx)]
      | ok a => rw [run_bind_ok (hlast.trans hx)]; rfl

end World

end RR32
