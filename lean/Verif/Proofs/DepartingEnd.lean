import Verif.Proofs.DepartingSame
import Verif.Props.Lifetime

/-! # Callbacks that destroy objects: what is left -/

set_option autoImplicit false

namespace RR32

namespace Scene

open World

/-! ## Destroyed objects do not come back -/

/-- No object exists afterwards that did not exist before, and only objects that existed are told something or changed. -/
structure Later (h g : Scene) : Prop where
  fewer : ∀ o, g.live o = true → h.live o = true
  only : OnlyLiving h.live h.w g.w

theorem only_more {live live' : Obj → Bool} {w v : World} (hl : ∀ o, live o = true → live' o = true) (h : OnlyLiving live w v) :
    OnlyLiving live' w v := by
  obtain ⟨⟨l, h1, h2⟩, h3, h4, h5⟩ := h
  refine ⟨⟨l, h1, fun x hx => ?_⟩, fun n hn => hl _ (h3 n hn), fun n hn => hl _ (h4 n hn), fun n hn => hl _ (h5 n hn)⟩
  have := h2 x hx
  cases x with
  | call c => obtain ⟨o, h6, h7⟩ := this; exact ⟨o, h6, hl _ h7⟩
  | consumer c => exact hl _ this
  | streamEnd cb c b seen => exact ⟨hl _ this.1, hl _ this.2⟩

theorem later_refl (h : Scene) : Later h h := ⟨fun _ h => h, .refl _ _⟩

theorem later_trans {a b c : Scene} (h1 : Later a b) (h2 : Later b c) : Later a c :=
  ⟨fun o h => h1.fewer o (h2.fewer o h), h1.only.trans (only_more h1.fewer h2.only)⟩

theorem later_put {h : Scene} {w : World} (hw : OnlyLiving h.live h.w w) : Later h (h.put w) := ⟨fun _ h => h, hw⟩

theorem later_setParser {h : Scene} {n : Nat} (hn : h.live (.parser n) = true) (p : StreamParser) : Later h (h.setParser n p) :=
  later_put (living_setParser hn p)

theorem later_setText {h : Scene} {n : Nat} (hn : h.live (.parser n) = true) (t : TextParser) : Later h (h.setText n t) :=
  later_put (living_setParser hn _)

theorem later_station (h : Scene) (s : Station) : Later h (h.put { h.w with station := s }) :=
  later_put ⟨⟨[], (List.append_nil _).symm, fun x hx => (by cases hx)⟩, fun _ h => (h rfl).elim, fun _ h => (h rfl).elim, fun _ h => (h rfl).elim⟩

theorem later_log {h : Scene} {e : LogEntry} (he : TellsLiving h.live e) : Later h (h.put (h.w.logAll [e])) :=
  later_put ⟨⟨[e], rfl, fun x hx => (by rw [List.mem_singleton.mp hx]; exact he)⟩, fun _ h => (h rfl).elim, fun _ h => (h rfl).elim, fun _ h => (h rfl).elim⟩

/-- Every result of the run has the property. -/
def Yields {α : Type} (x : RunD α) (Q : α → Prop) : Prop := ∀ a, x.Returns a → Q a

theorem yields_pure {α : Type} {Q : α → Prop} {a : α} (h : Q a) : Yields (pure a : RunD α) Q := by
  intro b hb; cases hb; exact h

theorem yields_none {α : Type} {Q : α → Prop} : Yields (ExceptT.mk none : RunD α) Q := by
  intro b hb; cases hb

theorem returns_bind {α β : Type} {x : RunD α} {f : α → RunD β} {b : β} (h : (x >>= f).Returns b) : ∃ a, x.Returns a ∧ (f a).Returns b := by
  unfold RunD.Returns at *
  cases hx : x.run with
  | none => rw [bind_gone hx] at h; cases h
  | some r =>
    cases r with
    | error e => rw [bind_wrong hx] at h; cases h
    | ok a => rw [bind_returns hx] at h; exact ⟨a, rfl, h⟩

theorem yields_bind {α β : Type} {x : RunD α} {f : α → RunD β} {R : α → Prop} {Q : β → Prop} (hx : Yields x R) (hf : ∀ a, R a → Yields (f a) Q) :
    Yields (x >>= f) Q := by
  intro b hb
  obtain ⟨a, ha, hb⟩ := returns_bind hb
  exact hf a (hx a ha) b hb

theorem yields_lift {α : Type} {r : Res α} {Q : α → Prop} (h : ∀ a, r = .ok a → Q a) : Yields (RunD.lift r) Q := by
  intro a ha
  cases r with
  | error e => cases ha
  | ok b => cases ha; exact h _ rfl

theorem returns_use {h : Scene} {os : List Obj} {u : Unit} (hu : (h.use os).Returns u) : ∀ o ∈ os, h.live o = true :=
  check_inv (u := u) (by unfold RunD.Returns Scene.use at hu; exact Option.some.inj hu)

theorem yields_use {α : Type} {h : Scene} {os : List Obj} {f : Unit → RunD α} {Q : α → Prop} (hf : (∀ o ∈ os, h.live o = true) → Yields (f ()) Q) :
    Yields (h.use os >>= f) Q := yields_bind (R := fun _ => ∀ o ∈ os, h.live o = true) (fun _ hu => returns_use hu) (fun _ hu => hf hu)

theorem yields_from {x : RunD Scene} {a b : Scene} (h : Later a b) (hx : Yields x (Later b)) : Yields x (Later a) := fun g hg => later_trans h (hx g hg)

theorem yields_foldlM {α : Type} {a : Scene} (f : Scene → α → RunD Scene) (hf : ∀ g x, Yields (f g x) (Later g)) (l : List α) (h : Scene) (hh : Later a h) :
    Yields (l.foldlM f h) (Later a) := by
  induction l generalizing h with
  | nil => exact yields_pure hh
  | cons x l ih =>
    rw [List.foldlM_cons]
    exact yields_bind (hf h x) (fun g hg => ih g (later_trans hh hg))

section
variable {P : ProgramD} {k : List Obj → Scene → Act → RunD Scene} (hk : ∀ busy h a, Yields (k busy h a) (Later h))
include hk

theorem react_later (busy : List Obj) (h : Scene) (e : LogEntry) : Yields (react P k busy h e) (Later h) :=
  yields_foldlM _ (hk busy) _ h (later_refl h)

theorem callConsumer_later (busy : List Obj) (h : Scene) (c : ConsumerCall) : Yields (callConsumer P k busy h c) (Later h) := by
  refine yields_use fun hu => yields_bind (yields_lift (Q := fun v => h.w.callConsumer c = .ok v) fun _ h => h) fun v hv => ?_
  have hl : h.w.callConsumerL h.live c = .ok v := by
    unfold callConsumerL
    rw [check_ok hu, hv]
    rfl
  exact yields_foldlM _ (react_later hk busy) _ (h.put v) (later_put (callConsumer_living hl).2)

theorem tellConsumers_later (busy : List Obj) (h : Scene) (cs : List ConsumerCall) : Yields (tellConsumers P k busy h cs) (Later h) :=
  yields_foldlM _ (callConsumer_later hk busy) _ h (later_refl h)

theorem tellEvents_later (busy : List Obj) (h : Scene) (evs : List ParseEvent) : Yields (tellEvents P k busy h evs) (Later h) :=
  tellConsumers_later hk busy h _

omit hk in
theorem any_lift {α : Type} (r : Res α) : Yields (RunD.lift r) (fun _ => True) := fun _ _ => trivial

theorem findToken_later (busy : List Obj) (h : Scene) (n : Nat) (hn : h.live (.parser n) = true) (o : Nat) (cs : List Byte) (d : TextParser.Dest) :
    Yields (findToken P k busy h n o cs d) (fun x => Later h x.1) :=
  yields_bind (any_lift _) (fun x _ => yields_bind (yields_from (later_setText hn x.1) (tellEvents_later hk busy _ x.2.1)) (fun _ hg => yields_pure hg))

theorem processStep_later (busy : List Obj) (h : Scene) (n : Nat) (hn : h.live (.parser n) = true) (o : Nat) :
    Yields (processStep P k busy h n o) (fun x => Later h x.1) := by
  have plain : Yields (do
        let (t, evs, consumed, stop) ← RunD.lift ((h.text n).processStep o)
        let h ← tellEvents P k busy (h.setText n t) evs
        pure (h, consumed, stop) : RunD (Scene × Nat × Bool)) (fun x => Later h x.1) :=
    yields_bind (any_lift _) (fun x _ => yields_bind (yields_from (later_setText hn x.1) (tellEvents_later hk busy _ x.2.1)) (fun _ hg => yields_pure hg))
  unfold processStep
  split
  · exact plain
  · exact plain
  · exact plain
  · exact plain
  · refine yields_bind (findToken_later hk busy h n hn _ _ _) ?_
    rintro ⟨g, r⟩ hg
    dsimp only at hg ⊢
    split
    · refine yields_use fun hu => ?_
      have hn2 := hu _ (List.mem_singleton.mpr rfl)
      split
      · exact yields_pure (later_trans hg (later_setText hn2 _))
      · split
        · refine yields_bind (any_lift _) fun value _ => ?_
          refine yields_bind (yields_from (later_setText hn2 { g.text n with value := value }) (tellEvents_later hk busy _ _)) fun g2 hg2 => ?_
          exact yields_use fun hu => yields_bind (any_lift _) fun key _ =>
            yields_pure (later_trans hg (later_trans hg2 (later_setText (hu _ (List.mem_singleton.mpr rfl)) _)))
        · exact yields_pure hg
    · exact yields_pure hg
  · refine yields_bind (findToken_later hk busy h n hn _ _ _) ?_
    rintro ⟨g, r⟩ hg
    dsimp only at hg ⊢
    split
    · refine yields_use fun _ => yields_bind (tellEvents_later hk busy g _) fun g2 hg2 => ?_
      refine yields_use fun hu => yields_bind (any_lift _) fun key _ => yields_bind (any_lift _) fun value _ => yields_pure ?_
      have hn2 := hu _ (List.mem_singleton.mpr rfl)
      exact later_trans hg (later_trans hg2 (later_trans (later_setText hn2 { g2.text n with key := key })
        (later_setText (h := g2.setText n { g2.text n with key := key }) hn2 _)))
    · exact yields_pure hg

theorem processLoop_later (busy : List Obj) (fuel : Nat) : ∀ (h : Scene) (n o : Nat), Yields (processLoop P k busy fuel h n o) (fun x => Later h x.1) := by
  induction fuel with
  | zero => intro h n o a ha; cases ha
  | succ fuel ih =>
    intro h n o
    unfold processLoop
    refine yields_use fun hu => ?_
    split
    · refine yields_bind (processStep_later hk busy h n (hu _ (List.mem_singleton.mpr rfl)) o) ?_
      rintro ⟨g, c, s⟩ hg
      dsimp only at hg ⊢
      split
      · exact yields_pure hg
      · exact fun a ha => later_trans hg (ih g n c a ha)
    · exact yields_pure (later_refl h)

theorem reportParseError_later (busy : List Obj) (h : Scene) (n : Nat) (hn : h.live (.parser n) = true) : Yields (reportParseError P k busy h n) (Later h) :=
  yields_bind (any_lift _) (fun x _ => yields_from (later_setText hn x.1) (tellEvents_later hk busy _ x.2))

theorem addLoop_later (busy : List Obj) (fuel : Nat) : ∀ (h : Scene) (n : Nat), h.live (.parser n) = true → ∀ (input : BufferManager) (i : Nat),
    Yields (addLoop P k busy fuel h n input i) (Later h) := by
  induction fuel with
  | zero => intro h n hn input i a ha; cases ha
  | succ fuel ih =>
    intro h n hn input i
    unfold addLoop
    split
    · split
      · exact reportParseError_later hk busy h n hn
      · refine yields_bind (any_lift _) ?_
        rintro ⟨buffer, m⟩ -
        refine yields_bind (processLoop_later hk busy _ (h.setText n { h.text n with buffer := buffer }) n 0) ?_
        rintro ⟨g, c⟩ hg
        dsimp only at hg ⊢
        refine yields_use fun hu => yields_bind (any_lift _) fun buffer' _ => ?_
        have hn2 := hu _ (List.mem_singleton.mpr rfl)
        exact yields_from (later_trans (later_trans (later_setText hn _) hg) (later_setText hn2 { g.text n with buffer := buffer' }))
          (ih (g.setText n { g.text n with buffer := buffer' }) n hn2 input _)
    · exact yields_pure (later_refl h)

theorem addText_later (busy : List Obj) (h : Scene) (n : Nat) (hn : h.live (.parser n) = true) (input : BufferManager) :
    Yields (addText P k busy h n input) (Later h) := by
  unfold addText
  split
  · exact reportParseError_later hk busy h n hn
  · exact addLoop_later hk busy _ h n hn input 0

theorem parserReset_later (busy : List Obj) (h : Scene) (n : Nat) :
    Yields (parserReset P k busy h n) (fun g => Later h g ∧ g.live (.parser n) = true) := by
  refine yields_use fun _ => yields_bind (tellConsumers_later hk _ h _) fun g hg => ?_
  refine yields_use fun hu => yields_bind (any_lift _) fun p _ => yields_pure ⟨?_, hu _ (List.mem_singleton.mpr rfl)⟩
  exact later_trans hg (later_setParser (hu _ (List.mem_singleton.mpr rfl)) p)

/-- A stream parser that is gone after a packet was destroyed when the consumer was told that the stream is over. -/
def EndedWith (P : ProgramD) (k : List Obj → Scene → Act → RunD Scene) (busy : List Obj) (n : Nat) (h : Scene) : Prop :=
  ∃ (g : Scene) (a : ConsumerAction), (a = .complete ∨ a = .aborted) ∧ g.live (.parser n) = true ∧ (g.w.parsers n).isProcessing = false ∧
    (tellConsumers P k busy g ((g.w.parsers n).notify a)).Returns h

theorem parserData_later (busy : List Obj) (h : Scene) (n : Nat) (hn : h.live (.parser n) = true) (d : Data) :
    Yields (parserData P k busy h n d) (fun g => Later h g ∧ (g.live (.parser n) = true ∨ EndedWith P k busy n g)) := by
  refine yields_bind (any_lift _) fun crc _ => ?_
  refine yields_bind (yields_from (later_setParser hn { h.w.parsers n with
      remaining := (h.w.parsers n).remaining - d.dlc.zeroExtend 32
      crc := some ((d.bytes.take d.dlc.toNat).foldl Crc.updateCrc crc) }) (addText_later hk _ (h.setParser n _) n hn _)) fun g hg => ?_
  refine yields_use fun hu => ?_
  have hl := hu _ (List.mem_singleton.mpr rfl)
  have fin : ∀ (s : StreamState) (a : ConsumerAction), (a = .complete ∨ a = .aborted) → s = .STREAM_DONE ∨ s = .IDLE →
      Yields (tellConsumers P k busy (g.setParser n { g.w.parsers n with state := s })
        (((g.setParser n { g.w.parsers n with state := s }).w.parsers n).notify a)) (fun g => Later h g ∧ (g.live (.parser n) = true ∨ EndedWith P k busy n g)) := by
    intro s a ha hs g2 hg2
    have hs2 := tellConsumers_later hk busy (g.setParser n { g.w.parsers n with state := s }) _ g2 hg2
    refine ⟨later_trans hg (later_trans (later_setParser hl _) hs2), Or.inr ⟨g.setParser n { g.w.parsers n with state := s }, a, ha, hl, ?_, hg2⟩⟩
    show (((g.w.setParser n { g.w.parsers n with state := s }).parsers n)).isProcessing = false
    rw [setParser_get]
    rcases hs with rfl | rfl <;> rfl
  split
  · refine yields_bind (any_lift _) fun crc _ => ?_
    split
    · exact fin _ _ (Or.inl rfl) (Or.inl rfl)
    · exact fin _ _ (Or.inr rfl) (Or.inr rfl)
  · exact yields_pure ⟨hg, Or.inl hl⟩

theorem parserAdd_later (busy : List Obj) (h : Scene) (n : Nat) (d : Data) :
    Yields (parserAdd P k busy h n d) (fun g => Later h g ∧ (g.live (.parser n) = true ∨ EndedWith P k busy n g)) := by
  refine yields_use fun hu => ?_
  have hl := hu _ (List.mem_singleton.mpr rfl)
  split
  · exact fun g hg => ⟨(parserReset_later hk busy h n g hg).1, Or.inl (parserReset_later hk busy h n g hg).2⟩
  · rename_i hr
    split
    · exact parserData_later hk busy h n hl d
    · rename_i hd
      refine yields_bind (yields_lift (Q := fun x => (h.w.parsers n).addMessage d = .ok x) (fun _ h => h)) ?_
      rintro ⟨p, calls⟩ hx
      have stay : calls = [] → Yields (tellConsumers P k busy (h.setParser n p) calls) (fun g => Later h g ∧ (g.live (.parser n) = true ∨ EndedWith P k busy n g)) := by
        rintro rfl
        exact yields_pure ⟨later_setParser hl p, Or.inl hl⟩
      show Yields (tellConsumers P k busy (h.setParser n p) calls) _
      unfold StreamParser.addMessage at hx
      split at hx
      · cases hx; exact stay rfl
      · cases hx; exact stay rfl
      · rename_i hst
        unfold StreamParser.addFirst at hx
        have h67 : d.dlc = 6#8 ∨ d.dlc = 7#8 := by
          unfold resets at hr
          rw [hst] at hr
          simp only [decide_eq_true_eq] at hr
          by_cases h6 : d.dlc = 6#8
          · exact Or.inl h6
          · by_cases h7 : d.dlc = 7#8
            · exact Or.inr h7
            · exact absurd ⟨h6, h7⟩ hr
        rw [if_pos h67] at hx
        obtain ⟨crc, -, hx⟩ := bind_ok hx
        dsimp only at hx
        split at hx
        · cases hx; exact stay rfl
        · cases hx
          intro g hg
          have hs2 := tellConsumers_later hk busy _ _ g hg
          refine ⟨later_trans (later_setParser hl _) hs2, Or.inr ⟨h.setParser n { h.w.parsers n with
              state := .STREAM_DONE
              remaining := StreamParser.firstLength d
              crc := some (crc.loadReference (StreamParser.firstCrc d)) }, .complete, Or.inl rfl, hl, ?_, ?_⟩⟩
          · show ((h.w.setParser n _).parsers n).isProcessing = false
            rw [setParser_get]
            rfl
          · show (tellConsumers P k busy _ (((h.w.setParser n _).parsers n).notify .complete)).Returns g
            rw [setParser_get]
            exact hg
      · rename_i h0; exact absurd h0 hd

theorem tell_later (busy : List Obj) (h : Scene) (e : LogEntry) (he : TellsLiving h.live e) : Yields (tell P k busy h e) (Later h) :=
  yields_from (later_log he) (react_later hk busy _ e)

theorem runCall_later (busy : List Obj) (h : Scene) (c : Call) : Yields (runCall P k busy h c) (Later h) := by
  cases c with
  | cfgStart n => exact yields_use fun hu => yields_pure (later_setParser (hu _ (List.mem_singleton.mpr rfl)) _)
  | cfgAdd n d => exact fun g hg => (parserAdd_later hk busy h n d g hg).1
  | cfgReset n => exact fun g hg => (parserReset_later hk busy h n g hg).1
  | tx cb f =>
    unfold runCall
    dsimp only
    split
    · intro a ha; cases ha
    · exact yields_use fun hu => tell_later hk busy h _ ⟨_, for_target _, hu _ (List.mem_singleton.mpr rfl)⟩
  | _ => exact yields_use fun hu => tell_later hk busy h _ ⟨_, for_target _, hu _ (List.mem_singleton.mpr rfl)⟩

theorem runCalls_later (busy : List Obj) (h : Scene) (r : Res (List Call)) : Yields (runCalls P k busy h r) (Later h) :=
  yields_bind (any_lift _) (fun cs _ => yields_foldlM _ (runCall_later hk busy) cs h (later_refl h))

theorem finish_later (busy : List Obj) (h : Scene) :
    Yields (finish P k busy h) (fun g => Later h g ∧ ∀ n, h.w.station.callbacks.configData = some n → g.live (.parser n) = true) := by
  unfold finish
  split
  · next h0 => exact yields_pure ⟨later_refl h, fun n hn => by rw [h0] at hn; cases hn⟩
  · next n h0 =>
    refine yields_bind (parserReset_later hk busy h n) fun g hg => yields_pure ⟨later_trans hg.1 (later_station g _), ?_⟩
    intro m hm
    rw [h0] at hm
    cases hm
    exact hg.2

omit hk in
theorem finish_none (busy : List Obj) (h : Scene) : Yields (finish P k busy h) (fun g => g.w.station.callbacks.configData = none) := by
  unfold finish
  split
  · next h0 => exact yields_pure h0
  · exact yields_bind (R := fun _ => True) (fun _ _ => trivial) fun g _ => yields_pure rfl

theorem send8_later (busy : List Obj) (h : Scene) (id : Identifier) (bytes : List Byte) : Yields (send8 P k busy h id bytes) (Later h) :=
  runCalls_later hk busy h _

omit hk in
theorem yields_self {α : Type} (x : RunD α) : Yields x (fun a => x.Returns a) := fun _ h => h

omit hk in
theorem requested_none (g : Scene) : g.requested none = g.put (g.w.register none) := by
  unfold Scene.requested put World.register
  simp

omit hk in
theorem requested_some (g : Scene) (n : Nat) :
    g.requested (some n) = (g.put (g.w.register (some n))).setParser n ((g.put (g.w.register (some n))).w.parsers n).startStream := by
  simp only [Scene.requested, put, World.register, Scene.setParser, World.setParser, StreamParser.startStream, Scene.mk.injEq, World.mk.injEq,
    true_and, and_true]
  funext m
  by_cases hm : m = n
  · subst hm; simp
  · simp [hm]

/-- A request that is not ignored: the former request is ended, the parser is started, and three packets are sent. The engine is needed
before the second one, and before the third one if its name is long. -/
def NamedBy (P : ProgramD) (k : List Obj → Scene → Act → RunD Scene) (busy engine : List Obj) (info : World → ShortInfo) (p : Option Nat)
    (h h' : Scene) : Prop :=
  ∃ (g0 g2 g3 : Scene) (id : Identifier) (len : Nat) (m1 m2 m3 : List Byte),
    (finish P k (p.toList.map .parser ++ engine ++ busy) h).Returns g0 ∧ (∀ n, p = some n → g0.live (.parser n) = true) ∧
    (send8 P k (engine ++ busy) (g0.requested p) id m1).Returns g2 ∧ (∀ o ∈ engine, g2.live o = true) ∧ strlen (info g2.w).name = .ok len ∧
    (send8 P k ((if CanDataMaxLength < len then engine else []) ++ busy) g2 id m2).Returns g3 ∧
      (len > CanDataMaxLength → ∀ o ∈ engine, g3.live o = true) ∧ (send8 P k busy g3 id m3).Returns h'

theorem requestEngine_later (busy : List Obj) (h : Scene) (engine : List Obj) (info : World → ShortInfo) (p : Option Nat) :
    Yields (requestEngine P k busy h engine info p) (fun g => Later h g ∧ (g = h ∨ NamedBy P k busy engine info p h g)) := by
  unfold requestEngine
  split
  · exact yields_pure ⟨later_refl h, Or.inl rfl⟩
  · split
    · exact yields_pure ⟨later_refl h, Or.inl rfl⟩
    · refine yields_bind (yields_self _) fun g hg0 => yields_use fun hu => ?_
      have hg := finish_later hk _ h g hg0
      have hpar : ∀ n, p = some n → g.live (.parser n) = true := by
        rintro n rfl
        exact hu (.parser n) (List.mem_singleton.mpr rfl)
      have rest : Later h (g.requested p) → ∀ id mem, Yields (do
          let h ← send8 P k (engine ++ busy) (g.requested p) id mem
          h.use engine
          let engineNameLength ← RunD.lift (strlen (info h.w).name)
          let mem ← RunD.lift (strncpy ({} : Data).bytes (info h.w).name CanDataMaxLength)
          let long := decide (engineNameLength > CanDataMaxLength)
          let h ← send8 P k ((if long then engine else []) ++ busy) h id mem
          h.use (if long then engine else [])
          let mem ← RunD.lift (if long then
              strncpy ({} : Data).bytes ((info h.w).name.drop CanDataMaxLength) CanDataMaxLength
            else .ok ({} : Data).bytes)
          send8 P k busy h id mem) (fun g => Later h g ∧ (g = h ∨ NamedBy P k busy engine info p h g)) := by
        intro h1 id mem
        refine yields_bind (R := fun g2 => (send8 P k (engine ++ busy) (g.requested p) id mem).Returns g2) (fun _ h => h) fun g2 h2 => yields_use fun hu2 => ?_
        refine yields_bind (yields_lift (Q := fun l => strlen (info g2.w).name = .ok l) fun _ h => h) fun len hlen => ?_
        refine yields_bind (any_lift _) fun m2 _ => ?_
        refine yields_bind (R := fun g3 => (send8 P k ((if decide (len > CanDataMaxLength) then engine else []) ++ busy) g2 id m2).Returns g3) (fun _ h => h) fun g3 h3 => ?_
        refine yields_use fun hu3 => yields_bind (any_lift _) fun m3 _ => ?_
        intro g4 h4
        refine ⟨later_trans h1 (later_trans (send8_later hk _ _ id mem g2 h2) (later_trans (send8_later hk _ g2 id m2 g3 h3) (send8_later hk _ g3 id m3 g4 h4))), Or.inr ?_⟩
        refine ⟨g, g2, g3, id, len, mem, m2, m3, hg0, hpar, h2, hu2, hlen, by simpa using h3, fun hl => ?_, h4⟩
        rw [if_pos (decide_eq_true hl)] at hu3
        exact hu3
      cases p with
      | none =>
        rw [requested_none] at rest
        exact yields_bind (any_lift _) fun mem _ => rest (later_trans hg.1 (later_station g _)) _ mem
      | some n =>
        rw [requested_some] at rest
        refine yields_bind (any_lift _) fun mem _ => rest ?_ _ mem
        exact later_trans hg.1 (later_trans (later_station g _) (later_setParser (hu (.parser n) (List.mem_singleton.mpr rfl)) _))

omit hk in
/-- The functions that call nobody. -/
theorem plain_later {h : Scene} {op : Op} {w : World} (hu : ∀ o ∈ h.w.opUses op, h.live o = true) (hw : h.w.step op = .ok w)
    (hp : h.w.stationDoes op = none) (ha : ∀ n d, op ≠ .parserAdd n d) (hr : ∀ n, op ≠ .parserReset n) : Later h (h.put w) := by
  refine later_put (C89_living h.live h.w w op ?_).2
  have hw2 : Out.lift (h.w.step op) = .ok w := by rw [hw]; rfl
  unfold stepL
  rw [check_ok hu, hp]
  cases op with
  | parserAdd n d => exact (ha n d rfl).elim
  | parserReset n => exact (hr n rfl).elim
  | _ => exact hw2

theorem step_later (busy : List Obj) (h : Scene) (op : Op) : Yields (step P k busy h op) (Later h) := by
  refine yields_use fun hu => ?_
  have fin : Yields (finish P k busy h) (Later h) := fun g hg => (finish_later hk busy h g hg).1
  have plain : h.w.stationDoes op = none → (∀ n d, op ≠ .parserAdd n d) → (∀ n, op ≠ .parserReset n) →
      Yields (do let w ← RunD.lift (h.w.step op); pure (h.put w) : RunD Scene) (Later h) := fun hp ha hr =>
    yields_bind (yields_lift (Q := fun w => h.w.step op = .ok w) fun _ h => h) fun w hw => yields_pure (plain_later hu hw hp ha hr)
  cases op with
  | begin_ u cbs =>
    refine yields_bind (R := fun g => Later h g ∧ g.w.station.callbacks.configData = none) (fun g hg => ⟨(finish_later hk _ h g hg).1, finish_none _ h g hg⟩) fun g hg =>
      yields_bind (yields_lift (Q := fun w => g.w.step (.begin_ u cbs) = .ok w) fun _ h => h) fun w hw => ?_
    have : w = { g.w with station := (g.w.station.begin_ u cbs).1 } := by
      have hc : (g.w.station.begin_ u cbs).2 = [] := by
        show g.w.station.FinishCurrentConfigRequest.2 = []
        unfold Station.FinishCurrentConfigRequest
        rw [hg.2]
      have hw : World.runCalls { g.w with station := (g.w.station.begin_ u cbs).1 } (g.w.station.begin_ u cbs).2 = .ok w := hw
      rw [hc] at hw
      cases hw
      rfl
    rw [this]
    exact yields_pure (later_trans hg.1 (later_station g _))
  | requestEngineList off p =>
    refine yields_bind (finish_later hk _ h) fun g hg => yields_bind (any_lift _) ?_
    rintro ⟨s, calls⟩ -
    exact yields_from (later_trans hg.1 (later_station g s)) (runCalls_later hk busy _ _)
  | requestEngine e p => exact fun g hg => (requestEngine_later hk busy h _ _ p g hg).1
  | requestShortInfo i p => exact fun g hg => (requestEngine_later hk busy h _ _ p g hg).1
  | finish => exact fin
  | abort => exact fin
  | notifyReceived => exact fin
  | handle f => exact runCalls_later hk busy h _
  | parserAdd n d => exact fun g hg => (parserAdd_later hk busy h n d g hg).1
  | parserReset n => exact fun g hg => (parserReset_later hk busy h n g hg).1
  | requestAllFunctions e => exact runCalls_later hk busy h _
  | requestDirection e => exact runCalls_later hk busy h _
  | sendDirection e d => exact runCalls_later hk busy h _
  | requestVelocity e => exact runCalls_later hk busy h _
  | sendVelocity e v => exact runCalls_later hk busy h _
  | requestFunction e f => exact runCalls_later hk busy h _
  | sendFunction e f v => exact runCalls_later hk busy h _
  | sendEmergencyStop e => exact runCalls_later hk busy h _
  | sendStop => exact runCalls_later hk busy h _
  | sendGo => exact runCalls_later hk busy h _
  | sendAccessory a p d pw => exact runCalls_later hk busy h _
  | sendPacket f => exact runCalls_later hk busy h _
  | _ => exact plain rfl (fun _ _ h => by cases h) (fun _ h => by cases h)

end

theorem destroy_drops (h : Scene) (o : Obj) : Yields (h.destroy o) (fun g => g = h.drop o) := yields_use fun _ => yields_pure rfl

theorem drop_later (h : Scene) (o : Obj) : Later h (h.drop o) := by
  refine ⟨fun x hx => ?_, .refl _ _⟩
  have hx : (x != o && h.live x) = true := hx
  simp at hx
  exact hx.2

theorem nested_later (P : ProgramD) (depth : Nat) (busy : List Obj) (h : Scene) (a : Act) : Yields (nested P depth busy h a) (Later h) := by
  induction depth generalizing busy h a with
  | zero =>
    cases a with
    | call op => exact yields_none
    | destroy o => intro g hg; rw [destroy_drops h o g hg]; exact drop_later h o
  | succ depth ih =>
    cases a with
    | call op => exact step_later ih busy h op
    | destroy o => intro g hg; rw [destroy_drops h o g hg]; exact drop_later h o

end Scene

end RR32
