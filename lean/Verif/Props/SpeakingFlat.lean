import Verif.Proofs.SpeakingFlat
import Verif.Props.Nested
import Verif.Props.Output

/-! # C97: the console if no callback calls back -/

set_option autoImplicit false

namespace RR32

namespace Desk

open World

/-- C97. If no callback calls back, the program and the console are at the end what the model without nested calls says, whatever is
logged. -/
theorem C97_flat (g : LogConfig) (P : Program) (hP : P.Silent) (depth : Nat) (h h' : Desk) (ops : List Op) (v : World) (t : List Byte)
    (h1 : (run g P depth h ops).Returns h') (h2 : h.w.runO g ops = .ok (v, t)) : h' = ⟨v, h.out ++ t⟩ := by
  obtain ⟨e1, e2⟩ := fold_flat hP (nested_shadow g P depth) h1 h2
  rw [← e1, ← e2]

/-- C97. In a configuration that prints no contents of packets and streams, the one returns if the other does. -/
theorem C97_flat_quiet (g : LogConfig) (q1 : g.packets = false) (q2 : g.events = false) (q3 : g.all = false) (P : Program) (hP : P.Silent)
    (depth : Nat) (w v : World) (out t : List Byte) (ops : List Op) :
    (run g P depth ⟨w, out⟩ ops).Returns ⟨v, out ++ t⟩ ↔ w.runO g ops = .ok (v, t) := by
  constructor
  · intro h
    have h1 := ((C74_silent P hP depth w ops).1 v).mp (C97_same g P depth _ _ ops h)
    obtain ⟨s, hs⟩ := (C83_quiet g q2 q3 w v ops).mp h1
    have := C97_flat g P hP depth _ _ ops v s h hs
    injection this with _ e
    rw [hs, List.append_cancel_left e]
  · intro h
    have h1 := ((C74_silent P hP depth w ops).1 v).mpr (C83_same g w v ops t h)
    obtain ⟨s, hs⟩ := (C97_quiet g q1 q2 q3 P depth w v out ops).1.mp h1
    have := C97_flat g P hP depth _ _ ops v t hs h
    injection this with _ e
    rw [← e]
    exact hs

/-- Both hypotheses of `C97_flat` hold of a received stream with an entry and a wrong checksum, everything being logged. -/
example : (match run .tests (fun _ _ => []) 0 ⟨caseLogged, str "> "⟩ (caseLoggedOps "[lokomot" "ive]\n.ui" "d=0x17\n\n") |>.run,
      caseLogged.runO .tests (caseLoggedOps "[lokomot" "ive]\n.ui" "d=0x17\n\n") with
    | some (.ok h), .ok (_, t) => h.out == str "> " ++ t && decide (t.length = 589)
    | _, _ => false) = true := by decide +kernel

end Desk

end RR32
