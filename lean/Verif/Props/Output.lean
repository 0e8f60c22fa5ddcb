import Verif.Proofs.Output
import Verif.Props.Served

/-! # C83: logging and the behaviour of the program -/

set_option autoImplicit false

namespace RR32

open Spec World

/-- C83: in every logging configuration, a history that ends well ends in the state in which it ends without any of the text: the same
calls were made, in the same order, and every object holds the same. -/
theorem C83_same (g : LogConfig) (w v : World) (ops : List Op) (t : List Byte) (h : w.runO g ops = .ok (v, t)) : w.run ops = .ok v := by
  induction ops generalizing w v t with
  | nil => cases h; rfl
  | cons op ops ih =>
    unfold runO inTurn at h
    obtain ⟨⟨u, t1⟩, h1, h⟩ := bind_ok h
    obtain ⟨⟨v', t2⟩, h2, h⟩ := bind_ok h
    cases h
    rw [World.run_cons, ((prints_step g).same h1).1]
    exact ih u v t2 h2

/-- C83, for one call: a call that ends well without text does so with the text of a configuration exactly if the received frame is not
longer than its object, and the entries that the consumers of the library were given can be printed; otherwise the text is read from
outside of an object. -/
theorem C83_exactly (g : LogConfig) (w v : World) (op : Op) (h : w.step op = .ok v) :
    ((∃ t, w.stepO g op = .ok (v, t)) ↔ FramePrintable g w op ∧ EntriesPrintable g w (v.log.drop w.log.length)) ∧
    (¬(FramePrintable g w op ∧ EntriesPrintable g w (v.log.drop w.log.length)) → w.stepO g op = .error .oobRead) :=
  ⟨⟨fun ⟨_, ht⟩ => ((prints_step g).same ht).2, fun hp => (prints_step g).good w op v h hp⟩, fun hp => (prints_step g).bad w op v h hp⟩

theorem growing_run {w v : World} {ops : List Op} (h : w.run ops = .ok v) : (∃ l, v.log = w.log ++ l) ∧ v.apps = w.apps :=
  growing_fold growing_step w ops v h

/-- C83, for histories in which no received frame is longer than its object, and in which the entries that the consumers of the library
are given end with a NUL within section, key and value: no logging configuration makes a difference. Missing: the other histories, for
which it is false (`C83_false`). -/
theorem C83_history_partial (g : LogConfig) (w v : World) (ops : List Op) (hf : ∀ f, .handle f ∈ ops → f.data.dlc.toNat ≤ 9)
    (h : w.run ops = .ok v) (he : EntriesPrintable g w (v.log.drop w.log.length)) : ∃ t, w.runO g ops = .ok (v, t) := by
  induction ops generalizing w v with
  | nil => cases h; exact ⟨_, rfl⟩
  | cons op ops ih =>
    rw [World.run_cons] at h
    obtain ⟨u, h1, h2⟩ := bind_ok h
    have g1 := growing_step w op u h1
    have g2 := growing_run h2
    have ha := (adds_trans g g1.1 g1.2 g2.1).mp he
    obtain ⟨t1, e1⟩ := (prints_step g).good w op u h1 ⟨fun f e _ _ => hf f (by rw [e]; exact List.mem_cons_self ..), ha.1⟩
    obtain ⟨t2, e2⟩ := ih u v (fun f m => hf f (List.mem_cons_of_mem _ m)) h2 ha.2
    refine ⟨t1 ++ t2, ?_⟩
    unfold runO inTurn
    rw [e1]
    simp only [bind, Except.bind]
    unfold runO at e2
    rw [e2]

/-- C83, for the configurations that log no stream data: every history ends well with the text exactly if it ends well without, in the
same state. Among them is the template. -/
theorem C83_quiet (g : LogConfig) (h1 : g.events = false) (h2 : g.all = false) (w v : World) (ops : List Op) :
    w.run ops = .ok v ↔ ∃ t, w.runO g ops = .ok (v, t) := by
  refine ⟨fun h => ?_, fun ⟨t, ht⟩ => C83_same g w v ops t ht⟩
  induction ops generalizing w v with
  | nil => cases h; exact ⟨_, rfl⟩
  | cons op ops ih =>
    rw [World.run_cons] at h
    obtain ⟨u, a1, a2⟩ := bind_ok h
    obtain ⟨t1, e1⟩ := (prints_step g).good w op u a1
      ⟨fun f e hg => (by rw [h2] at hg; cases hg), fun hg => (by rw [h1] at hg; cases hg)⟩
    obtain ⟨t2, e2⟩ := ih u v a2
    refine ⟨t1 ++ t2, ?_⟩
    unfold runO inTurn
    rw [e1]
    simp only [bind, Except.bind]
    unfold runO at e2
    rw [e2]

theorem C83_template (w v : World) (ops : List Op) : w.run ops = .ok v ↔ ∃ t, w.runO .template ops = .ok (v, t) :=
  C83_quiet .template rfl rfl w v ops

/-! ## The difference -/

/-- A world with an engine consumer. -/
def caseLogged : World := World.new ⟨32⟩ (fun _ => .loco ⟨.obj 0, .obj 9⟩) (fun _ => Locomotive.construct (List.replicate 8 0#8))

/-- A history: a file is requested, and a stream of three packets arrives. -/
def caseLoggedOps (a b c : String) : List Op :=
  let packet (s : String) : Op := .handle { id := ⟨0x420301#32⟩, data :=
    { dlc := 8#8, b0 := (str s).getD 0 0, b1 := (str s).getD 1 0, b2 := (str s).getD 2 0, b3 := (str s).getD 3 0, b4 := (str s).getD 4 0,
      b5 := (str s).getD 5 0, b6 := (str s).getD 6 0, b7 := (str s).getD 7 0 } }
  [.begin_ 1#16 { tx := some 5 }, .parserStart 0 (some 7), .requestEngineList 0#8 (some 0),
    .handle { id := ⟨0x420301#32⟩, data := { dlc := 6#8, b3 := 24#8 } }, packet a, packet b, packet c]

/-- Whether a result is a value. -/
def endsWell {α : Type} : Res α → Bool
  | .ok _ => true
  | .error _ => false

/-- The section in the stream has eleven characters. -/
def elevenChars : List Op := caseLoggedOps "[lokomot" "ive1]\n.u" "id=1\n"

/-- C83 is false in the configuration in which the repository runs its own tests: the history ends well without the text, and in the
template configuration, and with the text of this one memory outside of the object is read. -/
theorem C83_false : (∃ v, caseLogged.run elevenChars = .ok v) ∧ (∃ v t, caseLogged.runO .template elevenChars = .ok (v, t)) ∧
    caseLogged.runO .tests elevenChars = .error .oobRead := by
  have h1 : ∃ v, caseLogged.run elevenChars = .ok v := by
    have : endsWell (caseLogged.run elevenChars) = true := by decide +kernel
    cases h : caseLogged.run elevenChars with
    | ok v => exact ⟨v, rfl⟩
    | error e => rw [h] at this; cases this
  refine ⟨h1, ?_, ?_⟩
  · obtain ⟨v, hv⟩ := h1
    obtain ⟨t, ht⟩ := (C83_template caseLogged v elevenChars).mp hv
    exact ⟨v, t, ht⟩
  · have : (match caseLogged.runO .tests elevenChars with | .error .oobRead => true | _ => false) = true := by decide +kernel
    split at this
    · assumption
    · cases this

/-! ## Cases -/

/-- The stream with a section of ten characters and a wrong checksum, and all that is printed in the configuration of the tests. -/
example : (match caseLogged.runO .tests (caseLoggedOps "[lokomot" "ive]\n.ui" "d=0x17\n\n") with
    | .ok (v, t) => t == (str "Config Data Stream.\n" ++ str " 00 00 00 0x18 00 00 '\x00\x00\x00\x18\x00\x00'  " ++
          str "Stream length: 24 Bytes. " ++ str "CRC requested: 0000 CRC actual: 0xffff.\n" ++
        str "Config Data Stream.\n" ++ str " 0x5b 0x6c 0x6f 0x6b 0x6f 0x6d 0x6f 0x74 '[lokomot'" ++ str " Stream continues. Bytes remaining: 16, Current CRC: 0xd3bd\n" ++
        str "Config Data Stream.\n" ++ str " 0x69 0x76 0x65 0x5d 0xa 0x2e 0x75 0x69 'ive]\n.ui'" ++ str " Stream continues. Bytes remaining: 8, Current CRC: 0xc005\n" ++
        str "Config Data Stream.\n" ++ str " 0x64 0x3d 0x30 0x78 0x31 0x37 0xa 0xa 'd=0x17\n\n'" ++ str " EngineControl::consumeConfigData(\"lokomotive\", \"uid\", \"0x17\")\n" ++
          str "Setting UID\nCRC Error - Stream aborted. " ++ str "CRC requested: 0000, CRC actual: 0x276a.\n") && (v.engines 0).data.uid == 0x17#32
    | .error _ => false) = true := by decide +kernel

/-- A frame with a command that is not known, and a frame of a stream while nothing is requested. -/
example : ∃ v t, caseLogged.runO .tests [.handle { id := ⟨0x7F0301#32⟩, data := {} }, .handle { id := ⟨0x420301#32⟩, data := { dlc := 6#8 } }] = .ok (v, t) ∧
    caseLogged.run [.handle { id := ⟨0x7F0301#32⟩, data := {} }, .handle { id := ⟨0x420301#32⟩, data := { dlc := 6#8 } }] = .ok v := by
  refine ⟨_, _, rfl, rfl⟩

end RR32
