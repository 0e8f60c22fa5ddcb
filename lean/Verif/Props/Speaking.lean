import Verif.Proofs.SpeakingGrows
import Verif.Props.Lines
import Verif.Props.Nested

/-!
# C97: the console while callbacks call back

Printing changes nothing but the console, the console only grows, and lines are finished when a call returns. A line of the library can be torn
apart by what a callback makes the library print: that about a received accessory frame.
-/

set_option autoImplicit false

namespace RR32

open Spec

namespace Desk

/-- A whole history beside the one without the printing. -/
theorem run_shadow (g : LogConfig) (P : Program) (depth : Nat) (h : Desk) (ops : List Op) :
    (run g P depth h ops).Shadow g.Quiet (·.w) (World.runN P depth h.w ops) := by
  have := shadow_foldlM (f := Desk.w) (step g P (nested g P depth)) (World.stepN P (World.nested P depth)) id
    (fun b a => step_shadow (nested_shadow g P depth) b a) ops h
  rwa [List.map_id] at this

/-- C97: whatever is logged, and whatever callbacks call: a history that returns with the printing returns the same without it. -/
theorem C97_same (g : LogConfig) (P : Program) (depth : Nat) (h h' : Desk) (ops : List Op) (hr : (run g P depth h ops).Returns h') :
    (World.runN P depth h.w ops).Returns h'.w := by
  have := run_shadow g P depth h ops
  unfold Run.Shadow at this
  unfold Run.Returns at hr
  rw [hr] at this
  exact this

/-- The console only grows. -/
theorem pieces_any (g : LogConfig) : Pieces g (fun _ => True) :=
  ⟨trivial, fun _ _ _ _ => trivial, fun _ _ _ _ => trivial, fun _ _ _ _ => trivial, fun _ _ _ _ _ => trivial, fun _ _ _ _ _ => trivial,
    fun _ _ _ _ _ _ _ => trivial⟩

/-- C97: the console only grows: nothing that was printed before is changed. -/
theorem C97_grows (g : LogConfig) (P : Program) (depth : Nat) (h h' : Desk) (ops : List Op) (hr : (run g P depth h ops).Returns h') :
    ∃ t, h'.out = h.out ++ t := by
  have key : (run g P depth h ops).Keeps (Grows (fun _ => True) h) :=
    sat_foldlM _ _ ops h (fun op _ b hb => sat_mono (step_grows (A := fun _ => True) (pieces_any g)
      (fun x y _ => nested_grows (pieces_any g) (fun _ _ _ _ _ _ _ _ _ _ => trivial) depth x y (fun _ _ _ _ _ _ => trivial))
      (fun _ _ _ _ => trivial) b op (fun _ _ _ _ _ => trivial)) (fun _ => grows_trans (pieces_any g) hb)) (grows_refl (pieces_any g) h)
  obtain ⟨t, ht, -⟩ := keeps_returns key hr
  exact ⟨t, ht⟩

/-- C97, for the configurations that log nothing about streams, among them the template: a history returns with the printing exactly if it
returns without it, with the same state, and exhausts the stack exactly if it does so without it. -/
theorem C97_quiet (g : LogConfig) (h1 : g.packets = false) (h2 : g.events = false) (h3 : g.all = false) (P : Program) (depth : Nat)
    (w v : World) (out : List Byte) (ops : List Op) :
    ((World.runN P depth w ops).Returns v ↔ ∃ t, (run g P depth ⟨w, out⟩ ops).Returns ⟨v, out ++ t⟩) ∧
    ((World.runN P depth w ops).run = none ↔ (run g P depth ⟨w, out⟩ ops).run = none) := by
  have hs := run_shadow g P depth ⟨w, out⟩ ops
  unfold Run.Shadow at hs
  refine ⟨⟨fun hr => ?_, fun ⟨t, hr⟩ => C97_same g P depth _ _ ops hr⟩, ?_⟩
  · unfold Run.Returns at hr ⊢
    cases hx : (run g P depth ⟨w, out⟩ ops).run with
    | none => rw [hx] at hs; rw [hs] at hr; cases hr
    | some r =>
      rw [hx] at hs
      cases r with
      | error e =>
        obtain ⟨e', he⟩ := hs ⟨h1, h2, h3⟩
        rw [he] at hr; cases hr
      | ok h' =>
        have hs : (World.runN P depth w ops).run = some (.ok h'.w) := hs
        rw [hs] at hr
        cases hr
        obtain ⟨t, ht⟩ := C97_grows g P depth ⟨w, out⟩ h' ops hx
        refine ⟨t, ?_⟩
        have : h' = ⟨h'.w, out ++ t⟩ := by rw [← ht]
        rw [← this]
  · constructor
    · intro hr
      cases hx : (run g P depth ⟨w, out⟩ ops).run with
      | none => rfl
      | some r =>
        rw [hx] at hs
        cases r with
        | error e =>
          obtain ⟨e', he⟩ := hs ⟨h1, h2, h3⟩
          rw [hr] at he; cases he
        | ok h' =>
          have hs : (World.runN P depth w ops).run = some (.ok h'.w) := hs
          rw [hr] at hs; cases hs
    · intro hr
      rw [hr] at hs
      exact hs

/-! ## Whole lines -/

theorem handleText_template {w : World} {f : CanFrame} {t : List Byte} (h : w.handleText .template f = .ok t) :
    w.station.packetText w.processing f = .ok t := by
  simp only [World.handleText] at h
  obtain ⟨x, e1, h⟩ := bind_ok h
  obtain ⟨x2, e2, h⟩ := bind_ok h
  obtain ⟨x3, e3, h⟩ := bind_ok h
  obtain ⟨x4, e4, h⟩ := bind_ok h
  obtain ⟨x5, e5, h⟩ := bind_ok h
  cases e1; cases e2; cases e3; cases e4; cases h
  rw [e5]
  rfl

theorem pieces_lines : Pieces .template WholeLines where
  nil := Or.inl rfl
  append _ _ := wholeLines_append
  consumer := consumerText_lines
  head p d t h := by
    unfold StreamParser.headText at h
    have hm := messageText_lines p d
    split at h
    · split at h
      · cases h; exact Or.inl rfl
      · cases h; exact hm
    · split at h
      · cases h; exact Or.inl rfl
      · cases h; exact hm
    · cases h; exact hm
  tail p d q t h := by
    unfold StreamParser.tailText at h
    split at h
    · split at h <;> cases h <;> exact Or.inl rfl
    · cases h; exact Or.inl rfl
  op w op t ho h := by
    cases op with
    | handle f => exact absurd rfl (ho f)
    | requestEngine e p =>
      simp only [World.opText] at h
      repeat' split at h
      all_goals cases h; exact Or.inl rfl
    | requestShortInfo i p =>
      simp only [World.opText] at h
      repeat' split at h
      all_goals cases h; exact Or.inl rfl
    | _ => cases h; exact Or.inl rfl
  switch w f t u _ _ _ := by rw [← List.append_assoc]; exact wholeLines_end _

theorem frame_lines {w : World} {op : Op} (h : ∀ f, op = .handle f → ¬Unfinished w.station w.processing f) : Frame .template WholeLines w op := by
  intro f t hop _ ht
  exact (C68_lines_partial w.station w.processing f t (handleText_template ht)).mpr (h f hop)

/-- C97: as long as no frame of `Unfinished` is received, by the main program or inside of a callback, the console shows whole lines whenever
a call of the main program has returned, whatever callbacks call. -/
theorem C97_lines (P : Program) (depth : Nat) (h h' : Desk) (ops : List Op) (hr : (run .template P depth h ops).Returns h')
    (hP : ∀ w e, ∀ op ∈ P w e, ∀ f, op = .handle f → ∀ s b, ¬Unfinished s b f)
    (hu : ∀ before f later, ops = before ++ .handle f :: later → ∀ x, (run .template P depth h before).Returns x →
      ¬Unfinished x.w.station x.w.processing f) : ∃ t, h'.out = h.out ++ t ∧ WholeLines t := by
  induction ops generalizing h with
  | nil =>
    have : h = h' := by cases hr; rfl
    subst this
    exact grows_refl pieces_lines h
  | cons op ops ih =>
    unfold run at hr
    rw [List.foldlM_cons, returns_bind] at hr
    obtain ⟨x, r1, r2⟩ := hr
    have g1 := keeps_returns (step_grows (A := fun op => ∀ v, Frame .template WholeLines v op) pieces_lines
      (fun y z hz => nested_grows pieces_lines (fun w e o ho v => frame_lines (fun f hf => hP w e o ho f hf _ _)) depth y z hz)
      (fun w e o ho v => frame_lines (fun f hf => hP w e o ho f hf _ _)) h op
      (frame_lines (fun f hf => hu [] f ops (by rw [hf]; rfl) h rfl))) r1
    refine grows_trans pieces_lines g1 (ih x r2 ?_)
    intro before f later e y hy
    refine hu (op :: before) f later (by rw [e]; rfl) y ?_
    unfold run
    rw [List.foldlM_cons, returns_bind]
    exact ⟨x, r1, hy⟩

theorem switch_text {g : LogConfig} {w : World} {f : CanFrame} {t : List Byte} (hc : f.id.getCommand = kAccessorySwitch)
    (h : w.handleText g f = .ok t) : t = t.dropLast ++ str "\n" := by
  simp only [World.handleText] at h
  obtain ⟨x1, -, h⟩ := bind_ok h
  obtain ⟨x2, -, h⟩ := bind_ok h
  obtain ⟨x3, -, h⟩ := bind_ok h
  obtain ⟨x4, -, h⟩ := bind_ok h
  obtain ⟨x5, e5, h⟩ := bind_ok h
  cases h
  have : x5 = str "Accessory Switch. Details: " ++ TurnoutPacket.printAll f.data ++ str "\n" := by
    unfold Station.packetText at e5
    rw [hc] at e5
    cases e5
    rfl
  rw [this, ← List.append_assoc _ _ (str "\n")]
  show _ ++ [10#8] = (_ ++ [10#8]).dropLast ++ [10#8]
  rw [List.dropLast_concat]

/-- C97: the receipt of an accessory frame prints its line, whatever is logged; what is printed during the callback stands inside of that
line, before its end. -/
theorem C97_switch (g : LogConfig) (P : Program) (depth : Nat) (h h' : Desk) (f : CanFrame) (hc : commandOf f = 0x0B)
    (hr : (run g P depth h [.handle f]).Returns h') :
    ∃ t inner told, h.w.handleText g f = .ok (t ++ str "\n") ∧ h'.out = h.out ++ t ++ inner ++ str "\n" ∧
      (told.foldlM (tell P (nested g P depth)) ⟨h.w, h.out ++ t⟩).Returns ⟨h'.w, h.out ++ t ++ inner⟩ ∧
      told = h.w.station.callbacks.accessory.toList.map (fun cb => LogEntry.call (.onAccessoryPacket cb f.data (responseOf f))) := by
  have hc' : f.id.getCommand = kAccessorySwitch := (getCommand_iff f _).mpr hc
  obtain ⟨x, hr, hx⟩ := returns_bind.mp hr
  cases hx
  have hr : (handle g P (nested g P depth) h f).Returns h' := hr
  unfold handle at hr
  rw [if_pos hc'] at hr
  obtain ⟨h1, r1, hr⟩ := returns_bind.mp hr
  obtain ⟨h2, r2, r3⟩ := returns_bind.mp hr
  obtain ⟨s, e1, r1⟩ := returns_bind.mp r1
  obtain ⟨t, ht, e1⟩ := bind_ok (returns_lift.mp e1)
  cases e1
  cases r1
  cases r3
  have hp : h.w.station.HandlePacket h.w.processing f = h.w.station.HandleAccessoryPacket f.data f.id.isResponse := by
    unfold Station.HandlePacket
    rw [hc']
    rfl
  have r2 : (runCalls g P (nested g P depth) ⟨h.w, h.out ++ t.dropLast⟩ (h.w.station.HandlePacket h.w.processing f)).Returns h2 := r2
  rw [hp] at r2
  have ht' := switch_text hc' ht
  have hi : f.id.isResponse = responseOf f := isResponse_eq f
  unfold Station.HandleAccessoryPacket at r2
  cases ha : h.w.station.callbacks.accessory with
  | none =>
    rw [ha] at r2
    cases r2
    exact ⟨t.dropLast, [], [], by rw [← ht']; exact ht, by simp [List.append_assoc], by rw [List.append_nil]; rfl, rfl⟩
  | some cb =>
    rw [ha, hi] at r2
    obtain ⟨cs, e, r2⟩ := returns_bind.mp r2
    cases returns_lift.mp e
    obtain ⟨h3, r2, e⟩ := returns_bind.mp r2
    cases e
    have r2 : (tell P (nested g P depth) ⟨h.w, h.out ++ t.dropLast⟩ (.call (.onAccessoryPacket cb f.data (responseOf f)))).Returns h2 := r2
    obtain ⟨inner, hi, -⟩ := keeps_returns (tell_grows (A := fun _ => True) (pieces_any g)
      (fun x y _ => nested_grows (pieces_any g) (fun _ _ _ _ _ _ _ _ _ _ => trivial) depth x y (fun _ _ _ _ _ _ => trivial))
      (fun _ _ _ _ => trivial) _ _) r2
    refine ⟨t.dropLast, inner, _, by rw [← ht']; exact ht, by rw [hi], ?_, rfl⟩
    rw [Option.toList_some, List.map_cons, List.map_nil, List.foldlM_cons]
    refine returns_bind.mpr ⟨h2, r2, ?_⟩
    rw [← hi]
    rfl

/-- C97: what is printed inside of that line is what a main program would print that makes the calls of the callback. -/
theorem C97_inside (g : LogConfig) (P : Program) (depth cb : Nat) (h h' : Desk) (f : CanFrame) (hc : commandOf f = 0x0B)
    (ha : h.w.station.callbacks.accessory = some cb) (hr : (run g P (depth + 1) h [.handle f]).Returns h') :
    ∃ t inner v, h.w.handleText g f = .ok (t ++ str "\n") ∧ h' = ⟨v, h.out ++ t ++ inner ++ str "\n"⟩ ∧
      (run g P depth ⟨h.w.logAll [.call (.onAccessoryPacket cb f.data (responseOf f))], h.out ++ t⟩
        (P (h.w.logAll [.call (.onAccessoryPacket cb f.data (responseOf f))]) (.call (.onAccessoryPacket cb f.data (responseOf f))))).Returns
          ⟨v, h.out ++ t ++ inner⟩ := by
  obtain ⟨t, inner, told, e1, e2, e3, e4⟩ := C97_switch g P (depth + 1) h h' f hc hr
  rw [ha] at e4
  subst e4
  obtain ⟨h3, r, e⟩ := returns_bind.mp e3
  cases e
  exact ⟨t, inner, h'.w, e1, by rw [← e2], r⟩

/-- C97: sending a frame prints nothing but what is printed by the calls of the callback that gets it. -/
theorem C97_sent (g : LogConfig) (P : Program) (depth : Nat) (h h' : Desk) (f : CanFrame) :
    (run g P (depth + 1) h [.sendPacket f]).Returns h' ↔ ∃ cb e, h.w.station.callbacks.tx = some cb ∧
      e = .call (.tx cb { f with id := f.id.setHash h.w.station.senderHash }) ∧
      (run g P depth ⟨h.w.logAll [e], h.out⟩ (P (h.w.logAll [e]) e)).Returns h' := by
  have key : (run g P (depth + 1) h [.sendPacket f]).Returns h' ↔
      (runCalls g P (nested g P (depth + 1)) h (h.w.station.SendPacket f)).Returns h' := by
    unfold run
    rw [List.foldlM_cons, returns_bind]
    exact ⟨fun ⟨x, h1, h2⟩ => by cases h2; exact h1, fun h1 => ⟨h', h1, rfl⟩⟩
  rw [key]
  unfold Station.SendPacket Station.txSend runCalls
  cases ht : h.w.station.callbacks.tx with
  | none =>
    constructor
    · intro h1
      obtain ⟨x, h1, -⟩ := returns_bind.mp h1
      cases h1
    · rintro ⟨cb, e, h1, -⟩
      cases h1
  | some cb =>
    constructor
    · intro h1
      obtain ⟨x, h2, h1⟩ := returns_bind.mp h1
      cases returns_lift.mp h2
      obtain ⟨y, h3, h4⟩ := returns_bind.mp h1
      cases h4
      unfold runCall at h3
      simp only [ht] at h3
      exact ⟨cb, _, rfl, rfl, h3⟩
    · rintro ⟨cb', e, h1, rfl, h2⟩
      cases h1
      refine returns_bind.mpr ⟨_, returns_lift.mpr rfl, returns_bind.mpr ⟨h', ?_, rfl⟩⟩
      unfold runCall
      simp only [ht]
      exact h2

/-! ## Cases -/

/-- A frame about turnout 5, and a line of debug text. -/
def switchFrame : CanFrame := { id := ⟨0x160301#32⟩, data := { dlc := 6#8, b2 := 0x30#8, b3 := 4#8, b4 := 1#8, b5 := 1#8 } }
def helloFrame : CanFrame := { id := ⟨0x840301#32⟩, data := { dlc := 2#8, b0 := 72#8, b1 := 105#8 } }

/-- The accessory callback waits for the next frame and hands it to the library. -/
def eager : Program := fun _ e =>
  match e with
  | .call (.onAccessoryPacket ..) => [.handle helloFrame]
  | _ => []

/-- A station with an accessory callback. -/
def deskCase : World := World.started ⟨32⟩ (fun _ => .app) (fun _ => Locomotive.construct (List.replicate 8 0#8))
  { callbacks := { tx := some 1, accessory := some 2 }, senderHash := 0x0301#16 }

/-- The text of a run that returns. -/
def shownBy (x : Run Desk) : Option (List Byte) :=
  match x.run with
  | some (.ok h) => some h.out
  | _ => none

/-- A line torn apart: the text of the frame handed over by the callback stands in the line of the frame that it is called for. -/
theorem C97_torn : shownBy (run .template eager 5 ⟨deskCase, []⟩ [.handle switchFrame]) =
    some (str "Accessory Switch. Details: Turnout:     0x3004, Human Value: 12293, Position: 1 (on, straight, green) Power: " ++
      str "1 (on, button press)" ++ str "Debug Text: 'Hi'\n" ++ str "\n") := by decide +kernel

/-- The same frames, one after the other. -/
example : shownBy (run .template (fun _ _ => []) 5 ⟨deskCase, []⟩ [.handle switchFrame, .handle helloFrame]) =
    some (str "Accessory Switch. Details: Turnout:     0x3004, Human Value: 12293, Position: 1 (on, straight, green) Power: " ++
      str "1 (on, button press)" ++ str "\n" ++ str "Debug Text: 'Hi'\n") := by decide +kernel

/-- A callback that is called for a frame that has been logged. -/
def after : Program := fun _ e =>
  match e with
  | .call (.setSystemState ..) => [.handle switchFrame, .sendGo]
  | _ => []

/-- A frame that says that the system goes, and a station that is told of it. -/
def goFrame : CanFrame := { id := ⟨0x000301#32⟩, data := { dlc := 5#8, b4 := 1#8 } }

def deskCase2 : World := { deskCase with station := { deskCase.station with callbacks := { tx := some 1, accessory := some 2, system := some 3 } } }

/-- `C97_lines` applies: the callback receives a frame and sends another one. -/
example : (∀ w e, ∀ op ∈ after w e, ∀ f, op = .handle f → ∀ s b, ¬Unfinished s b f) ∧ ∃ h', (run .template after 5 ⟨deskCase2, []⟩ [.handle goFrame]).Returns h' ∧
    h'.w.log.length = 3 ∧ ∃ t, h'.out = t ∧ WholeLines t ∧ (t.filter (· = 10#8)).length = 2 := by
  refine ⟨?_, _, rfl, by decide +kernel, _, rfl, ?_, by decide +kernel⟩
  · intro w e op hop f hf s b
    subst hf
    unfold after at hop
    split at hop
    · simp at hop
      subst hop
      rintro (⟨h, -⟩ | ⟨h, -⟩) <;> revert h <;> decide
    · cases hop
  · exact Or.inr (by decide +kernel)

/-- The callback that gets a frame to send is handed a received one by the driver, and prints it. -/
example : shownBy (run .template (fun _ e => match e with | .call (.tx ..) => [.handle helloFrame] | _ => []) 1 ⟨deskCase, []⟩
    [.sendPacket switchFrame]) = some (str "Debug Text: 'Hi'\n") := by decide +kernel

end Desk

end RR32
