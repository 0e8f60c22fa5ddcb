import Verif.Proofs.Speaking
import Verif.Proofs.NestedStable

/-! # What calls with nested callbacks add to the console -/

set_option autoImplicit false

namespace RR32

open World

namespace Desk

/-- The console shows what it showed and then a text of the kind `G`. -/
def Grows (G : List Byte → Prop) (h h' : Desk) : Prop := ∃ t, h'.out = h.out ++ t ∧ G t

/-- What the functions of the library print one after the other is of the kind `G`. -/
structure Pieces (g : LogConfig) (G : List Byte → Prop) : Prop where
  nil : G []
  append : ∀ a b, G a → G b → G (a ++ b)
  consumer : ∀ (w : World) c t, w.consumerText g c = .ok t → G t
  head : ∀ (p : StreamParser) d t, p.headText g d = .ok t → G t
  tail : ∀ (p : StreamParser) d q t, p.tailText g d q = .ok t → G t
  op : ∀ (w : World) op t, (∀ f, op ≠ .handle f) → w.opText g op = .ok t → G t
  switch : ∀ (w : World) f t u, f.id.getCommand = kAccessorySwitch → w.handleText g f = .ok t → G u → G (t.dropLast ++ (u ++ str "\n"))

/-- What the receipt of this frame prints first is of the kind `G`. -/
def Frame (g : LogConfig) (G : List Byte → Prop) (w : World) (op : Op) : Prop :=
  ∀ f t, op = .handle f → f.id.getCommand ≠ kAccessorySwitch → w.handleText g f = .ok t → G t

section
variable {g : LogConfig} {P : Program} {k : Desk → Op → Run Desk} {G : List Byte → Prop} {A : Op → Prop} (hg : Pieces g G)

include hg in
theorem grows_put (h : Desk) (w : World) : Grows G h (h.put w) := ⟨[], (List.append_nil _).symm, hg.nil⟩

include hg in
theorem grows_refl (h : Desk) : Grows G h h := ⟨[], (List.append_nil _).symm, hg.nil⟩

include hg in
theorem grows_trans {a b c : Desk} (h1 : Grows G a b) (h2 : Grows G b c) : Grows G a c := by
  obtain ⟨t, e1, g1⟩ := h1
  obtain ⟨u, e2, g2⟩ := h2
  exact ⟨t ++ u, by rw [e2, e1, List.append_assoc], hg.append t u g1 g2⟩

theorem say_grows (h : Desk) (t : Res (List Byte)) (ht : ∀ s, t = .ok s → G s) : (h.say t).Keeps (fun h' => Grows G h h' ∧ h'.w = h.w) := by
  cases t with
  | error e => trivial
  | ok s => exact ⟨⟨s, rfl, ht s rfl⟩, rfl⟩

variable (hk : ∀ h op, A op → (k h op).Keeps (Grows G h)) (hP : ∀ w e, ∀ op ∈ P w e, A op)
include hg hk hP

theorem react_grows (h : Desk) (e : LogEntry) : (react P k h e).Keeps (Grows G h) :=
  sat_foldlM k (Grows G h) (P h.w e) h (fun op hop _ hb => sat_mono (hk _ op (hP _ e op hop)) (fun _ => grows_trans hg hb)) (grows_refl hg h)

theorem tell_grows (h : Desk) (e : LogEntry) : (tell P k h e).Keeps (Grows G h) := react_grows hg hk hP (h.put (h.w.logAll [e])) e

theorem callConsumer_grows (h : Desk) (c : ConsumerCall) : (callConsumer g P k h c).Keeps (Grows G h) := by
  refine sat_bind (say_grows h _ (hg.consumer h.w c)) ?_
  rintro h1 ⟨a1, -⟩
  refine sat_bind (keeps_lift (Q := fun _ => True) (fun _ _ => trivial)) ?_
  intro v _
  exact sat_foldlM (react P k) (Grows G h) _ _ (fun e _ b hb => sat_mono (react_grows hg hk hP b e) (fun _ => grows_trans hg hb))
    (grows_trans hg a1 (grows_put hg h1 v))

theorem tellConsumers_grows (h : Desk) (cs : List ConsumerCall) : (tellConsumers g P k h cs).Keeps (Grows G h) :=
  sat_foldlM (callConsumer g P k) (Grows G h) cs h (fun c _ b hb => sat_mono (callConsumer_grows hg hk hP b c) (fun _ => grows_trans hg hb))
    (grows_refl hg h)

theorem tellEvents_grows (h : Desk) (evs : List ParseEvent) : (tellEvents g P k h evs).Keeps (Grows G h) := tellConsumers_grows hg hk hP h _

theorem findToken_grows (h : Desk) (n o : Nat) (cs : List Byte) (d : TextParser.Dest) :
    (findToken g P k h n o cs d).Keeps (fun x => Grows G h x.1) := by
  refine sat_bind (keeps_lift (Q := fun _ => True) (fun _ _ => trivial)) ?_
  rintro ⟨t, evs, r⟩ -
  exact sat_bind (tellEvents_grows hg hk hP (h.setText n t) evs) (fun a ha => ha)

theorem processStep_grows (h : Desk) (n o : Nat) : (processStep g P k h n o).Keeps (fun x => Grows G h x.1) := by
  have plain : (do
        let (t, evs, consumed, stop) ← Run.lift ((h.text n).processStep o)
        let h ← tellEvents g P k (h.setText n t) evs
        pure (h, consumed, stop) : Run (Desk × Nat × Bool)).Keeps (fun x => Grows G h x.1) := by
    refine sat_bind (keeps_lift (Q := fun _ => True) (fun _ _ => trivial)) ?_
    rintro ⟨t, evs, c, s⟩ -
    exact sat_bind (tellEvents_grows hg hk hP (h.setText n t) evs) (fun a ha => ha)
  unfold processStep
  cases (h.text n).state with
  | LOOKING_FOR_KEY_OR_SECTION_START => exact plain
  | PARSING_SECTION => exact plain
  | LOOKING_FOR_VALUE_START => exact plain
  | ERROR => exact plain
  | PARSING_KEY =>
    refine sat_bind (findToken_grows hg hk hP h n _ _ _) ?_
    rintro ⟨h1, r⟩ a1
    dsimp only
    split
    · split
      · exact a1
      · split
        · refine sat_bind (keeps_lift (Q := fun _ => True) (fun _ _ => trivial)) ?_
          intro value _
          refine sat_bind (tellEvents_grows hg hk hP (h1.setText n { h1.text n with value := value }) _) ?_
          intro h2 a2
          refine sat_bind (keeps_lift (Q := fun _ => True) (fun _ _ => trivial)) ?_
          intro key _
          exact grows_trans hg a1 a2
        · exact a1
    · exact a1
  | PARSING_VALUE =>
    refine sat_bind (findToken_grows hg hk hP h n _ _ _) ?_
    rintro ⟨h1, r⟩ a1
    dsimp only
    split
    · refine sat_bind (tellEvents_grows hg hk hP h1 _) ?_
      intro h2 a2
      refine sat_bind (keeps_lift (Q := fun _ => True) (fun _ _ => trivial)) ?_
      intro key _
      refine sat_bind (keeps_lift (Q := fun _ => True) (fun _ _ => trivial)) ?_
      intro value _
      exact grows_trans hg a1 a2
    · exact a1

theorem processLoop_grows (fuel : Nat) : ∀ (h : Desk) (n o : Nat), (processLoop g P k fuel h n o).Keeps (fun x => Grows G h x.1) := by
  induction fuel with
  | zero => intro h n o; trivial
  | succ fuel ih =>
    intro h n o
    unfold processLoop
    split
    · refine sat_bind (processStep_grows hg hk hP h n o) ?_
      rintro ⟨h1, c, s⟩ a1
      dsimp only
      split
      · exact a1
      · exact sat_mono (ih h1 n c) (fun _ => grows_trans hg a1)
    · exact grows_refl hg h

theorem reportParseError_grows (h : Desk) (n : Nat) : (reportParseError g P k h n).Keeps (Grows G h) := by
  refine sat_bind (keeps_lift (Q := fun _ => True) (fun _ _ => trivial)) ?_
  rintro ⟨t, evs⟩ -
  exact tellEvents_grows hg hk hP (h.setText n t) evs

theorem addLoop_grows (fuel : Nat) : ∀ (h : Desk) (n : Nat) (input : BufferManager) (i : Nat),
    (addLoop g P k fuel h n input i).Keeps (Grows G h) := by
  induction fuel with
  | zero => intro h n input i; trivial
  | succ fuel ih =>
    intro h n input i
    unfold addLoop
    split
    · split
      · exact reportParseError_grows hg hk hP h n
      · refine sat_bind (keeps_lift (Q := fun _ => True) (fun _ _ => trivial)) ?_
        rintro ⟨buffer, m⟩ -
        refine sat_bind (processLoop_grows hg hk hP _ (h.setText n { h.text n with buffer := buffer }) n 0) ?_
        rintro ⟨h1, c⟩ a1
        dsimp only
        refine sat_bind (keeps_lift (Q := fun _ => True) (fun _ _ => trivial)) ?_
        intro buffer _
        exact sat_mono (ih (h1.setText n { h1.text n with buffer := buffer }) n input _) (fun _ => grows_trans hg a1)
    · exact grows_refl hg h

theorem addText_grows (h : Desk) (n : Nat) (input : BufferManager) : (addText g P k h n input).Keeps (Grows G h) := by
  unfold addText
  split
  · exact reportParseError_grows hg hk hP h n
  · exact addLoop_grows hg hk hP _ h n input 0

theorem parserReset_grows (h : Desk) (n : Nat) : (parserReset g P k h n).Keeps (Grows G h) := by
  refine sat_bind (tellConsumers_grows hg hk hP h _) ?_
  intro h1 a1
  refine sat_bind (keeps_lift (Q := fun _ => True) (fun _ _ => trivial)) ?_
  intro p _
  exact a1

theorem parserData_grows (h : Desk) (n : Nat) (d : Data) : (parserData g P k h n d).Keeps (Grows G h) := by
  refine sat_bind (keeps_lift (Q := fun _ => True) (fun _ _ => trivial)) ?_
  intro crc _
  refine sat_bind (addText_grows hg hk hP (h.setParser n { h.w.parsers n with
      remaining := (h.w.parsers n).remaining - d.dlc.zeroExtend 32
      crc := some ((d.bytes.take d.dlc.toNat).foldl Crc.updateCrc crc) }) n _) ?_
  intro h1 a1
  refine sat_bind (say_grows h1 _ (hg.tail _ _ _)) ?_
  rintro h2 ⟨a2, -⟩
  have a3 : Grows G h h2 := grows_trans hg (b := h1) a1 a2
  split
  · refine sat_bind (keeps_lift (Q := fun _ => True) (fun _ _ => trivial)) ?_
    intro crc _
    split
    · exact sat_mono (tellConsumers_grows hg hk hP (h2.setParser n { h2.w.parsers n with state := .STREAM_DONE }) _) (fun _ => grows_trans hg a3)
    · exact sat_mono (tellConsumers_grows hg hk hP (h2.setParser n { h2.w.parsers n with state := .IDLE }) _) (fun _ => grows_trans hg a3)
  · exact a3

theorem parserAdd_grows (h : Desk) (n : Nat) (d : Data) : (parserAdd g P k h n d).Keeps (Grows G h) := by
  refine sat_bind (say_grows h _ (hg.head _ _)) ?_
  rintro h1 ⟨a1, -⟩
  split
  · exact sat_mono (parserReset_grows hg hk hP h1 n) (fun _ => grows_trans hg a1)
  · split
    · exact sat_mono (parserData_grows hg hk hP h1 n d) (fun _ => grows_trans hg a1)
    · refine sat_bind (keeps_lift (Q := fun _ => True) (fun _ _ => trivial)) ?_
      rintro ⟨p, calls⟩ -
      exact sat_mono (tellConsumers_grows hg hk hP (h1.setParser n p) calls) (fun _ => grows_trans hg a1)

theorem runCall_grows (h : Desk) (c : Call) : (runCall g P k h c).Keeps (Grows G h) := by
  cases c with
  | cfgStart n => exact grows_put hg h _
  | cfgAdd n d => exact parserAdd_grows hg hk hP h n d
  | cfgReset n => exact parserReset_grows hg hk hP h n
  | tx cb f =>
    unfold runCall
    dsimp only
    cases h.w.station.callbacks.tx with
    | none => trivial
    | some cb => exact tell_grows hg hk hP h _
  | _ => exact tell_grows hg hk hP h _

theorem runCalls_grows (h : Desk) (r : Res (List Call)) : (runCalls g P k h r).Keeps (Grows G h) := by
  refine sat_bind (keeps_lift (Q := fun _ => True) (fun _ _ => trivial)) ?_
  intro cs _
  exact sat_foldlM (runCall g P k) (Grows G h) cs h (fun c _ b hb => sat_mono (runCall_grows hg hk hP b c) (fun _ => grows_trans hg hb))
    (grows_refl hg h)

theorem finish_grows (h : Desk) : (finish g P k h).Keeps (Grows G h) := by
  unfold finish
  cases h.w.station.callbacks.configData with
  | none => exact grows_refl hg h
  | some n => exact sat_bind (parserReset_grows hg hk hP h n) (fun a ha => ha)

theorem send8_grows (h : Desk) (id : Identifier) (bytes : List Byte) : (send8 g P k h id bytes).Keeps (Grows G h) :=
  runCalls_grows hg hk hP h _

theorem requestEngine_grows (h : Desk) (info : World → ShortInfo) (p : Option Nat) : (requestEngine g P k h info p).Keeps (Grows G h) := by
  unfold requestEngine
  split
  · exact grows_refl hg h
  · split
    · exact grows_refl hg h
    · refine sat_bind (finish_grows hg hk hP h) ?_
      intro h1 a1
      have rest : ∀ h2 : Desk, h2.out = h1.out → Grows G h h2 := fun h2 e => by
        obtain ⟨t, e1, e2⟩ := a1
        exact ⟨t, by rw [e, e1], e2⟩
      refine sat_bind (keeps_lift (Q := fun _ => True) (fun _ _ => trivial)) (fun _ _ => sat_bind (send8_grows hg hk hP _ _ _) (fun h2 a2 => ?_))
      refine sat_bind (keeps_lift (Q := fun _ => True) (fun _ _ => trivial)) (fun _ _ => ?_)
      refine sat_bind (keeps_lift (Q := fun _ => True) (fun _ _ => trivial)) (fun _ _ => sat_bind (send8_grows hg hk hP _ _ _) (fun h3 a3 => ?_))
      refine sat_bind (keeps_lift (Q := fun _ => True) (fun _ _ => trivial)) (fun _ _ => sat_mono (send8_grows hg hk hP _ _ _) (fun h4 a4 => ?_))
      refine grows_trans hg (grows_trans hg (grows_trans hg (rest _ ?_) a2) a3) a4
      cases p <;> rfl

theorem handle_grows (h : Desk) (f : CanFrame) (hf : Frame g G h.w (.handle f)) : (handle g P k h f).Keeps (Grows G h) := by
  unfold handle
  split
  · rename_i hc
    cases ht : h.w.handleText g f with
    | error e => trivial
    | ok t =>
      have key : (do
          let h ← runCalls g P k { h with out := h.out ++ t.dropLast } (h.w.station.HandlePacket h.w.processing f)
          h.say (.ok (str "\n")) : Run Desk).Keeps (Grows G h) := by
        refine sat_bind (runCalls_grows hg hk hP _ _) ?_
        rintro h1 ⟨u, a1, a2⟩
        refine ⟨t.dropLast ++ (u ++ str "\n"), ?_, hg.switch h.w f t u hc ht a2⟩
        rw [a1]
        simp [List.append_assoc]
      exact key
  · rename_i hc
    refine sat_bind (say_grows h _ (fun s hs => hf f s rfl hc hs)) ?_
    rintro h1 ⟨a1, -⟩
    exact sat_mono (runCalls_grows hg hk hP h1 _) (fun _ => grows_trans hg a1)

theorem step_grows (h : Desk) (op : Op) (hf : Frame g G h.w op) : (step g P k h op).Keeps (Grows G h) := by
  have plain : (do let w ← Run.lift (h.w.step op); pure (h.put w) : Run Desk).Keeps (Grows G h) :=
    sat_bind (keeps_lift (Q := fun _ => True) (fun _ _ => trivial)) (fun v _ => grows_put hg h v)
  have told : ∀ (F : Desk → Run Desk), (∀ f, op ≠ .handle f) → (∀ h', (F h').Keeps (Grows G h')) →
      (h.say (h.w.opText g op) >>= F).Keeps (Grows G h) := by
    intro F ho hF
    refine sat_bind (say_grows h _ (hg.op h.w op · ho)) ?_
    rintro h1 ⟨a1, -⟩
    exact sat_mono (hF h1) (fun _ => grows_trans hg a1)
  cases op with
  | begin_ u cbs =>
    refine sat_bind (finish_grows hg hk hP h) (fun h1 a1 => ?_)
    exact sat_bind (keeps_lift (Q := fun _ => True) (fun _ _ => trivial)) (fun v _ => a1)
  | requestEngineList off p =>
    refine sat_bind (finish_grows hg hk hP h) (fun h1 a1 => ?_)
    refine sat_bind (keeps_lift (Q := fun _ => True) (fun _ _ => trivial)) ?_
    rintro ⟨s, calls⟩ -
    exact sat_mono (runCalls_grows hg hk hP (h1.put { h1.w with station := s }) _) (fun _ => grows_trans hg (b := h1) a1)
  | requestEngine e p => exact told _ (by intro f hf; cases hf) (fun h' => requestEngine_grows hg hk hP h' _ p)
  | requestShortInfo i p => exact told _ (by intro f hf; cases hf) (fun h' => requestEngine_grows hg hk hP h' _ p)
  | sendAccessory a p d pw => exact told _ (by intro f hf; cases hf) (fun h' => runCalls_grows hg hk hP h' _)
  | finish => exact finish_grows hg hk hP h
  | abort => exact finish_grows hg hk hP h
  | notifyReceived => exact finish_grows hg hk hP h
  | handle f => exact handle_grows hg hk hP h f hf
  | parserAdd n d => exact parserAdd_grows hg hk hP h n d
  | parserReset n => exact parserReset_grows hg hk hP h n
  | requestAllFunctions e => exact runCalls_grows hg hk hP h _
  | requestDirection e => exact runCalls_grows hg hk hP h _
  | sendDirection e d => exact runCalls_grows hg hk hP h _
  | requestVelocity e => exact runCalls_grows hg hk hP h _
  | sendVelocity e v => exact runCalls_grows hg hk hP h _
  | requestFunction e f => exact runCalls_grows hg hk hP h _
  | sendFunction e f v => exact runCalls_grows hg hk hP h _
  | sendEmergencyStop e => exact runCalls_grows hg hk hP h _
  | sendStop => exact runCalls_grows hg hk hP h _
  | sendGo => exact runCalls_grows hg hk hP h _
  | sendPacket f => exact runCalls_grows hg hk hP h _
  | _ => exact plain

end

theorem nested_grows {g : LogConfig} {P : Program} {G : List Byte → Prop} (hg : Pieces g G)
    (hP : ∀ w e, ∀ op ∈ P w e, ∀ v, Frame g G v op) (depth : Nat) (h : Desk) (op : Op) (hop : ∀ v, Frame g G v op) :
    (nested g P depth h op).Keeps (Grows G h) := by
  induction depth generalizing h op with
  | zero => trivial
  | succ depth ih => exact step_grows (A := fun op => ∀ v, Frame g G v op) hg ih hP h op (hop h.w)

end Desk

end RR32
