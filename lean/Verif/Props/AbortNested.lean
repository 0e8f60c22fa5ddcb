import Verif.Proofs.NestedFrame
import Verif.Props.Abort

/-! # C52 with callbacks that call back -/

set_option autoImplicit false

namespace RR32

open Spec

/-- C52, with callbacks that call anything: every notification of an abort about an engine list sees the list cleared. -/
theorem C52_list_nested (P : Program) (depth : Nat) (w w' : World) (ops : List Op) (h : (World.runN P depth w ops).Returns w') :
    ∃ l, w'.log = w.log ++ l ∧ ∀ cb c s, .streamEnd cb c false s ∈ l → (w.consumers c).isList = true → ∃ x, s = .list x ∧ IsCleared x := by
  obtain ⟨-, l, h1, h2⟩ := goodAborts_frame.runN (A := fun _ => True) (fun _ _ _ ho _ hs => own_goodAborts ho hs) (fun _ _ _ _ => trivial)
    (fun _ _ => trivial) h
  exact ⟨l, h1, fun cb c s hm hl => (h2 _ hm cb c s rfl).1 hl⟩

/-- C52, with callbacks that call anything but do not change engines themselves: no engine becomes fully known unless a consumer is told that a
stream is complete. -/
theorem C52_engine_nested (P : Program) (hP : ∀ u e, ∀ op ∈ P u e, op.changesEngine = false) (depth : Nat) (w w' : World) (ops : List Op)
    (h : (World.runN P depth w ops).Returns w') (hops : ∀ op ∈ ops, op.changesEngine = false) :
    ∃ l, w'.log = w.log ++ l ∧ ((∀ n, .consumer ⟨n, .complete⟩ ∉ l) → ∀ k, (w'.engines k).info = (w.engines k).info) := by
  refine keepsInfo_frame.runN (A := fun op => op.changesEngine = false) (fun u v op ho hc hs => ?_) hP hops h
  cases op <;> first | (cases ho; done) | (cases hc; done) | skip
  all_goals
    simp only [World.step] at hs
    split at hs <;> cases hs <;> exact keepsInfo_same [] (by simp [World.setConsumer]) rfl

/-- A list with a name, whose callback starts another parser and sends a frame when it is told of the abort. -/
def abortedCase : Res (Option (List LogEntry)) := do
  let t ← TextParser.construct (List.replicate 31 0xAA#8) (List.replicate 11 0xAA#8) (List.replicate 11 0xAA#8) (List.replicate 26 0xAA#8)
  let w : World :=
    { pf := ⟨64⟩, station := { callbacks := { tx := some 2 } }, parsers := fun _ => StreamParser.construct t,
      consumers := fun _ => .list { LocoListConsumer.construct with
        engineInfo := [⟨.NAME_KNOWN, str "V 100" ++ List.replicate 28 0#8⟩, ShortInfo.construct], streamEndCallback := .obj 4 },
      engines := fun _ => Locomotive.construct [], log := [] }
  match (World.runN (fun _ e => match e with | .streamEnd .. => [.parserStart 5 (some 1), .parserStartStream 5, .sendGo] | _ => []) 3 w
    [.parserStart 0 (some 1), .parserStartStream 0, .parserAdd 0 {}]).run with
  | some (.ok u) => .ok (some u.log)
  | some (.error e) => .error e
  | none => .ok none

/-- The run returns, and the list was seen cleared. -/
example : (match abortedCase with
    | .ok (some [.consumer ⟨1, .aborted⟩, .streamEnd 4 1 false (.list l), .call (.tx 2 _)]) =>
        l.engineInfo.all (·.isFree) && l.numEnginesKnownByMaster == some 0#8 && l.streamComplete == some false
    | _ => false) = true := by decide +kernel

end RR32
