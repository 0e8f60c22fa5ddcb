import Verif.Props.NestedSend
import Verif.Props.Bus
import Verif.Spec.Tally

/-!
# How many frames a call puts on the bus, with callbacks that call back
-/

set_option autoImplicit false
set_option linter.unusedSectionVars false

namespace RR32

open Spec

namespace World

section
variable {I : World → Prop} (hI : ∀ w n p, I w → I (w.setParser n p))
variable {P : Program} {k : World → Op → Run World} (hC : ∀ w c, I w → (callConsumerN P k w c).Keeps I)
include hI hC

theorem tellEvents_tallied (w : World) (evs : List ParseEvent) (hw : I w) : (tellEvents P k w evs).Keeps I :=
  sat_foldlM _ _ _ _ (fun c _ u hu => hC u c hu) hw

theorem tellConsumers_tallied (w : World) (cs : List ConsumerCall) (hw : I w) : (tellConsumers P k w cs).Keeps I :=
  sat_foldlM _ _ _ _ (fun c _ u hu => hC u c hu) hw

variable {n : Nat}

theorem findTokenN_tallied (w : World) (o : Nat) (cs : List Byte) (d : TextParser.Dest) (hw : I w) :
    (findTokenN P k w n o cs d).Keeps (fun x => I x.1) := by
  unfold findTokenN
  refine sat_bind (keeps_lift (Q := fun _ => True) (fun _ _ => trivial)) (fun x _ => ?_)
  refine sat_bind (tellEvents_tallied hI hC _ _ (hI _ _ _ hw)) (fun v hv => ?_)
  exact sat_pure hv

theorem processStepN_tallied (w : World) (o : Nat) (hw : I w) : (processStepN P k w n o).Keeps (fun x => I x.1) := by
  have any : ∀ {α : Type} (r : Res α), (Run.lift r).Keeps (fun _ => True) := fun r => keeps_lift (fun _ _ => trivial)
  unfold processStepN
  split
  · refine sat_bind (any _) (fun x _ => ?_)
    exact sat_bind (tellEvents_tallied hI hC _ _ (hI _ _ _ hw)) (fun v hv => sat_pure hv)
  · refine sat_bind (any _) (fun x _ => ?_)
    exact sat_bind (tellEvents_tallied hI hC _ _ (hI _ _ _ hw)) (fun v hv => sat_pure hv)
  · refine sat_bind (any _) (fun x _ => ?_)
    exact sat_bind (tellEvents_tallied hI hC _ _ (hI _ _ _ hw)) (fun v hv => sat_pure hv)
  · refine sat_bind (any _) (fun x _ => ?_)
    exact sat_bind (tellEvents_tallied hI hC _ _ (hI _ _ _ hw)) (fun v hv => sat_pure hv)
  · refine sat_bind (findTokenN_tallied hI hC w _ _ _ hw) (fun x hx => ?_)
    obtain ⟨w1, r⟩ := x
    dsimp only at hx ⊢
    split
    · split
      · exact sat_pure (hI _ _ _ hx)
      · split
        · refine sat_bind (any _) (fun value _ => ?_)
          refine sat_bind (tellEvents_tallied hI hC _ _ (hI _ _ _ hx)) (fun v hv => ?_)
          refine sat_bind (any _) (fun key _ => ?_)
          exact sat_pure (hI _ _ _ hv)
        · exact sat_pure hx
    · exact sat_pure hx
  · refine sat_bind (findTokenN_tallied hI hC w _ _ _ hw) (fun x hx => ?_)
    obtain ⟨w1, r⟩ := x
    dsimp only at hx ⊢
    split
    · refine sat_bind (tellEvents_tallied hI hC _ _ hx) (fun v hv => ?_)
      refine sat_bind (any _) (fun key _ => ?_)
      refine sat_bind (any _) (fun value _ => ?_)
      exact sat_pure (hI _ _ _ (hI _ _ _ hv))
    · exact sat_pure hx

theorem processLoopN_tallied (fuel : Nat) (w : World) (o : Nat) (hw : I w) : (processLoopN P k fuel w n o).Keeps (fun x => I x.1) := by
  induction fuel generalizing w o with
  | zero => exact trivial
  | succ fuel ih =>
    rw [processLoopN]
    split
    · refine sat_bind (processStepN_tallied hI hC w o hw) (fun x hx => ?_)
      obtain ⟨w1, j, stop⟩ := x
      dsimp only at hx ⊢
      split
      · exact sat_pure hx
      · exact ih w1 _ hx
    · exact sat_pure hw

theorem reportParseErrorN_tallied (w : World) (hw : I w) : (reportParseErrorN P k w n).Keeps I := by
  unfold reportParseErrorN
  refine sat_bind (keeps_lift (Q := fun _ => True) (fun _ _ => trivial)) (fun x _ => ?_)
  exact tellEvents_tallied hI hC _ _ (hI _ _ _ hw)

theorem addLoopN_tallied (fuel : Nat) (w : World) (input : BufferManager) (o : Nat) (hw : I w) : (addLoopN P k fuel w n input o).Keeps I := by
  induction fuel generalizing w o with
  | zero => exact trivial
  | succ fuel ih =>
    rw [addLoopN]
    split
    · split
      · exact reportParseErrorN_tallied hI hC w hw
      · refine sat_bind (keeps_lift (Q := fun _ => True) (fun _ _ => trivial)) (fun x _ => ?_)
        refine sat_bind (processLoopN_tallied hI hC _ _ _ (hI _ _ _ hw)) (fun y hy => ?_)
        refine sat_bind (keeps_lift (Q := fun _ => True) (fun _ _ => trivial)) (fun b _ => ?_)
        exact ih _ _ (hI _ _ _ hy)
    · exact sat_pure hw

theorem addTextN_tallied (w : World) (input : BufferManager) (hw : I w) : (addTextN P k w n input).Keeps I := by
  unfold addTextN
  split
  · exact reportParseErrorN_tallied hI hC w hw
  · exact addLoopN_tallied hI hC _ _ _ _ hw

theorem parserResetN_tallied (w : World) (hw : I w) : (parserResetN P k w n).Keeps I := by
  unfold parserResetN
  refine sat_bind (tellConsumers_tallied hI hC _ _ hw) (fun v hv => ?_)
  refine sat_bind (keeps_lift (Q := fun _ => True) (fun _ _ => trivial)) (fun b _ => ?_)
  exact sat_pure (hI _ _ _ hv)

theorem parserAddN_tallied (w : World) (d : Data) (hw : I w) : (parserAddN P k w n d).Keeps I := by
  unfold parserAddN
  split
  · exact parserResetN_tallied hI hC w hw
  · split
    · unfold parserDataN
      refine sat_bind (keeps_lift (Q := fun _ => True) (fun _ _ => trivial)) (fun b _ => ?_)
      refine sat_bind (addTextN_tallied hI hC _ _ (hI _ _ _ hw)) (fun v hv => ?_)
      split
      · refine sat_bind (keeps_lift (Q := fun _ => True) (fun _ _ => trivial)) (fun b _ => ?_)
        split
        · exact tellConsumers_tallied hI hC _ _ (hI _ _ _ hv)
        · exact tellConsumers_tallied hI hC _ _ (hI _ _ _ hv)
      · exact sat_pure hv
    · refine sat_bind (keeps_lift (Q := fun _ => True) (fun _ _ => trivial)) (fun b _ => ?_)
      exact tellConsumers_tallied hI hC _ _ (hI _ _ _ hw)

end

end World

end RR32
