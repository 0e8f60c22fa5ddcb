import Verif.Proofs.NestedGood
import Verif.Proofs.NestedStep

/-! # Callbacks that call back: more stack, and callbacks that return -/

set_option autoImplicit false

namespace RR32

open Spec

namespace World

/-! ## More stack changes nothing, except that the run may go on -/

section
variable {P : Program} {k k' : World → Op → Run World} (hk : ∀ w op, (k w op).Below (k' w op))
include hk

theorem below_react (w : World) (e : LogEntry) : (react P k w e).Below (react P k' w e) := below_foldlM _ _ hk _ _

theorem below_callConsumerN (w : World) (c : ConsumerCall) : (callConsumerN P k w c).Below (callConsumerN P k' w c) :=
  below_bind (below_refl _) (fun _ => below_foldlM _ _ (below_react hk) _ _)

theorem below_tellConsumers (w : World) (cs : List ConsumerCall) : (tellConsumers P k w cs).Below (tellConsumers P k' w cs) :=
  below_foldlM _ _ (below_callConsumerN hk) _ _

theorem below_tellEvents (w : World) (evs : List ParseEvent) : (tellEvents P k w evs).Below (tellEvents P k' w evs) :=
  below_foldlM _ _ (below_callConsumerN hk) _ _

theorem below_findTokenN (w : World) (n i : Nat) (cs : List Byte) (d : TextParser.Dest) :
    (findTokenN P k w n i cs d).Below (findTokenN P k' w n i cs d) :=
  below_bind (below_refl _) (fun _ => below_bind (below_tellEvents hk _ _) (fun _ => below_refl _))

theorem below_processStepN (w : World) (n i : Nat) : (processStepN P k w n i).Below (processStepN P k' w n i) := by
  have plain : ∀ x : TextParser × List ParseEvent × Nat × Bool,
      (tellEvents P k (w.setText n x.1) x.2.1 >>= fun w => pure (w, x.2.2.1, x.2.2.2) : Run (World × Nat × Bool)).Below
        (tellEvents P k' (w.setText n x.1) x.2.1 >>= fun w => pure (w, x.2.2.1, x.2.2.2)) :=
    fun _ => below_bind (below_tellEvents hk _ _) (fun _ => below_refl _)
  unfold processStepN
  split
  · exact below_bind (below_refl _) plain
  · exact below_bind (below_refl _) plain
  · exact below_bind (below_refl _) plain
  · exact below_bind (below_refl _) plain
  · refine below_bind (below_findTokenN hk _ _ _ _ _) (fun x => ?_)
    simp only
    split
    · split
      · exact below_refl _
      · split
        · exact below_bind (below_refl _) (fun _ => below_bind (below_tellEvents hk _ _) (fun _ => below_refl _))
        · exact below_refl _
    · exact below_refl _
  · refine below_bind (below_findTokenN hk _ _ _ _ _) (fun x => ?_)
    simp only
    split
    · exact below_bind (below_tellEvents hk _ _) (fun _ => below_refl _)
    · exact below_refl _

theorem below_processLoopN (fuel : Nat) (w : World) (n i : Nat) : (processLoopN P k fuel w n i).Below (processLoopN P k' fuel w n i) := by
  induction fuel generalizing w i with
  | zero => exact below_refl _
  | succ fuel ih =>
    unfold processLoopN
    split
    · refine below_bind (below_processStepN hk _ _ _) (fun x => ?_)
      simp only
      split
      · exact below_refl _
      · exact ih _ _
    · exact below_refl _

theorem below_reportParseErrorN (w : World) (n : Nat) : (reportParseErrorN P k w n).Below (reportParseErrorN P k' w n) :=
  below_bind (below_refl _) (fun _ => below_tellEvents hk _ _)

theorem below_addLoopN (fuel : Nat) (w : World) (n : Nat) (input : BufferManager) (i : Nat) :
    (addLoopN P k fuel w n input i).Below (addLoopN P k' fuel w n input i) := by
  induction fuel generalizing w i with
  | zero => exact below_refl _
  | succ fuel ih =>
    unfold addLoopN
    split
    · split
      · exact below_reportParseErrorN hk _ _
      · exact below_bind (below_refl _) (fun _ => below_bind (below_processLoopN hk _ _ _ _) (fun _ => below_bind (below_refl _) (fun _ => ih _ _)))
    · exact below_refl _

theorem below_addTextN (w : World) (n : Nat) (input : BufferManager) : (addTextN P k w n input).Below (addTextN P k' w n input) := by
  unfold addTextN
  split
  · exact below_reportParseErrorN hk _ _
  · exact below_addLoopN hk _ _ _ _ _

theorem below_parserResetN (w : World) (n : Nat) : (parserResetN P k w n).Below (parserResetN P k' w n) :=
  below_bind (below_tellConsumers hk _ _) (fun _ => below_refl _)

theorem below_parserDataN (w : World) (n : Nat) (d : Data) : (parserDataN P k w n d).Below (parserDataN P k' w n d) := by
  refine below_bind (below_refl _) (fun _ => below_bind (below_addTextN hk _ _ _) (fun _ => ?_))
  split
  · refine below_bind (below_refl _) (fun _ => ?_)
    split
    · exact below_tellConsumers hk _ _
    · exact below_tellConsumers hk _ _
  · exact below_refl _

theorem below_parserAddN (w : World) (n : Nat) (d : Data) : (parserAddN P k w n d).Below (parserAddN P k' w n d) := by
  unfold parserAddN
  split
  · exact below_parserResetN hk _ _
  · split
    · exact below_parserDataN hk _ _ _
    · exact below_bind (below_refl _) (fun _ => below_tellConsumers hk _ _)

theorem below_runCallN (w : World) (c : Call) : (runCallN P k w c).Below (runCallN P k' w c) := by
  unfold runCallN
  split
  · exact below_refl _
  · exact below_parserAddN hk _ _ _
  · exact below_parserResetN hk _ _
  · split
    · exact below_refl _
    · exact below_react hk _ _
  · exact below_react hk _ _

theorem below_runCallsN (w : World) (r : Res (List Call)) : (runCallsN P k w r).Below (runCallsN P k' w r) :=
  below_bind (below_refl _) (fun _ => below_foldlM _ _ (below_runCallN hk) _ _)

theorem below_finishN (w : World) : (finishN P k w).Below (finishN P k' w) := by
  unfold finishN
  split
  · exact below_refl _
  · exact below_bind (below_parserResetN hk _ _) (fun _ => below_refl _)

theorem below_requestEngineN (w : World) (info : World → ShortInfo) (p : Option Nat) :
    (requestEngineN P k w info p).Below (requestEngineN P k' w info p) := by
  unfold requestEngineN
  split
  · exact below_refl _
  · split
    · exact below_refl _
    · exact below_bind (below_finishN hk _) (fun _ => below_bind (below_refl _) (fun _ => below_bind (below_runCallsN hk _ _) (fun _ =>
        below_bind (below_refl _) (fun _ => below_bind (below_refl _) (fun _ => below_bind (below_runCallsN hk _ _) (fun _ =>
          below_bind (below_refl _) (fun _ => below_runCallsN hk _ _)))))))

theorem below_stepN (w : World) (op : Op) : (stepN P k w op).Below (stepN P k' w op) := by
  unfold stepN
  split
  case h_1 => exact below_bind (below_finishN hk _) (fun _ => below_refl _)
  case h_2 => exact below_bind (below_finishN hk _) (fun _ => below_bind (below_refl _) (fun _ => below_runCallsN hk _ _))
  all_goals first
    | exact below_requestEngineN hk _ _ _
    | exact below_finishN hk _
    | exact below_runCallsN hk _ _
    | exact below_parserAddN hk _ _ _
    | exact below_parserResetN hk _ _
    | exact below_refl _

end

/-! ## If all callbacks return, so does every call -/

section
variable {P : Program} {k : World → Op → Run World} (hk : ∀ w e, (react P k w e).Ends)
include hk

theorem ends_callConsumerN (w : World) (c : ConsumerCall) : (callConsumerN P k w c).Ends :=
  ends_bind (ends_lift _) (fun _ _ => ends_foldlM _ _ _ (fun e _ u => hk u e))

theorem ends_tellConsumers (w : World) (cs : List ConsumerCall) : (tellConsumers P k w cs).Ends :=
  ends_foldlM _ _ _ (fun c _ u => ends_callConsumerN hk u c)

theorem ends_tellEvents (w : World) (evs : List ParseEvent) : (tellEvents P k w evs).Ends :=
  ends_foldlM _ _ _ (fun c _ u => ends_callConsumerN hk u c)

theorem ends_findTokenN (w : World) (n i : Nat) (cs : List Byte) (d : TextParser.Dest) : (findTokenN P k w n i cs d).Ends :=
  ends_bind (ends_lift _) (fun _ _ => ends_bind (ends_tellEvents hk _ _) (fun _ _ => ends_pure _))

theorem ends_processStepN (w : World) (n i : Nat) : (processStepN P k w n i).Ends := by
  unfold processStepN
  split
  · exact ends_bind (ends_lift _) (fun _ _ => ends_bind (ends_tellEvents hk _ _) (fun _ _ => ends_pure _))
  · exact ends_bind (ends_lift _) (fun _ _ => ends_bind (ends_tellEvents hk _ _) (fun _ _ => ends_pure _))
  · exact ends_bind (ends_lift _) (fun _ _ => ends_bind (ends_tellEvents hk _ _) (fun _ _ => ends_pure _))
  · exact ends_bind (ends_lift _) (fun _ _ => ends_bind (ends_tellEvents hk _ _) (fun _ _ => ends_pure _))
  · refine ends_bind (ends_findTokenN hk _ _ _ _ _) (fun x _ => ?_)
    simp only
    split
    · split
      · exact ends_pure _
      · split
        · exact ends_bind (ends_lift _) (fun _ _ => ends_bind (ends_tellEvents hk _ _) (fun _ _ => ends_bind (ends_lift _) (fun _ _ => ends_pure _)))
        · exact ends_pure _
    · exact ends_pure _
  · refine ends_bind (ends_findTokenN hk _ _ _ _ _) (fun x _ => ?_)
    simp only
    split
    · exact ends_bind (ends_tellEvents hk _ _) (fun _ _ => ends_bind (ends_lift _) (fun _ _ => ends_bind (ends_lift _) (fun _ _ => ends_pure _)))
    · exact ends_pure _

theorem ends_processLoopN (fuel : Nat) (w : World) (n i : Nat) : (processLoopN P k fuel w n i).Ends := by
  induction fuel generalizing w i with
  | zero => exact ends_lift _
  | succ fuel ih =>
    unfold processLoopN
    split
    · refine ends_bind (ends_processStepN hk _ _ _) (fun x _ => ?_)
      simp only
      split
      · exact ends_pure _
      · exact ih _ _
    · exact ends_pure _

theorem ends_reportParseErrorN (w : World) (n : Nat) : (reportParseErrorN P k w n).Ends :=
  ends_bind (ends_lift _) (fun _ _ => ends_tellEvents hk _ _)

theorem ends_addTextN (w : World) (n : Nat) (input : BufferManager) : (addTextN P k w n input).Ends := by
  have loop : ∀ fuel w i, (addLoopN P k fuel w n input i).Ends := by
    intro fuel
    induction fuel with
    | zero => intro w i; exact ends_lift _
    | succ fuel ih =>
      intro w i
      unfold addLoopN
      split
      · split
        · exact ends_reportParseErrorN hk _ _
        · exact ends_bind (ends_lift _) (fun _ _ => ends_bind (ends_processLoopN hk _ _ _ _) (fun _ _ => ends_bind (ends_lift _) (fun _ _ => ih _ _)))
      · exact ends_pure _
  unfold addTextN
  split
  · exact ends_reportParseErrorN hk _ _
  · exact loop _ _ _

theorem ends_parserResetN (w : World) (n : Nat) : (parserResetN P k w n).Ends :=
  ends_bind (ends_tellConsumers hk _ _) (fun _ _ => ends_bind (ends_lift _) (fun _ _ => ends_pure _))

theorem ends_parserAddN (w : World) (n : Nat) (d : Data) : (parserAddN P k w n d).Ends := by
  unfold parserAddN
  split
  · exact ends_parserResetN hk _ _
  · split
    · refine ends_bind (ends_lift _) (fun _ _ => ends_bind (ends_addTextN hk _ _ _) (fun _ _ => ?_))
      split
      · refine ends_bind (ends_lift _) (fun _ _ => ?_)
        split
        · exact ends_tellConsumers hk _ _
        · exact ends_tellConsumers hk _ _
      · exact ends_pure _
    · exact ends_bind (ends_lift _) (fun _ _ => ends_tellConsumers hk _ _)

theorem ends_runCallsN (w : World) (r : Res (List Call)) : (runCallsN P k w r).Ends := by
  refine ends_bind (ends_lift _) (fun _ _ => ends_foldlM _ _ _ (fun c _ u => ?_))
  unfold runCallN
  split
  · exact ends_pure _
  · exact ends_parserAddN hk _ _ _
  · exact ends_parserResetN hk _ _
  · split
    · exact ends_lift _
    · exact hk _ _
  · exact hk _ _

theorem ends_finishN (w : World) : (finishN P k w).Ends := by
  unfold finishN
  split
  · exact ends_pure _
  · exact ends_bind (ends_parserResetN hk _ _) (fun _ _ => ends_pure _)

theorem ends_stepN (w : World) (op : Op) : (stepN P k w op).Ends := by
  have engine : ∀ info p, (requestEngineN P k w info p).Ends := by
    intro info p
    unfold requestEngineN
    split
    · exact ends_pure _
    · split
      · exact ends_pure _
      · exact ends_bind (ends_finishN hk _) (fun _ _ => ends_bind (ends_lift _) (fun _ _ => ends_bind (ends_runCallsN hk _ _) (fun _ _ =>
          ends_bind (ends_lift _) (fun _ _ => ends_bind (ends_lift _) (fun _ _ => ends_bind (ends_runCallsN hk _ _) (fun _ _ =>
            ends_bind (ends_lift _) (fun _ _ => ends_runCallsN hk _ _)))))))
  unfold stepN
  split
  case h_1 => exact ends_bind (ends_finishN hk _) (fun _ _ => ends_lift _)
  case h_2 => exact ends_bind (ends_finishN hk _) (fun _ _ => ends_bind (ends_lift _) (fun _ _ => ends_runCallsN hk _ _))
  all_goals first
    | exact engine _ _
    | exact ends_finishN hk _
    | exact ends_runCallsN hk _ _
    | exact ends_parserAddN hk _ _ _
    | exact ends_parserResetN hk _ _
    | exact ends_lift _

end

end World

end RR32
