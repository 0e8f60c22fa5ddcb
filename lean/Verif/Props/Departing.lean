import Verif.Proofs.DepartingEnd

/-! # C94: callbacks that destroy objects -/

set_option autoImplicit false

namespace RR32

namespace Scene

open World

/-- C94: if all callbacks are careful, and the main program is, no destroyed object is ever used, and nothing that exists points to
something that does not. -/
theorem C94_careful (P : ProgramD) (hP : P.Careful) (depth : Nat) (h : Scene) (hk : Kept [] h) (acts : List Act)
    (ha : Heeds (act P (nested P depth) []) [] h acts) :
    ¬(run P depth h acts).Dangles ∧ ∀ h', (run P depth h acts).Returns h' → Kept [] h' := by
  have := heeds_clear (fun g op hg hm => step_clear (polite_nested hP depth) hg hm) (fun _ _ => rfl) ha hk
  exact ⟨fun ⟨o, ho⟩ => this.1 o ho, this.2⟩

/-- C94: a single call, wherever it is made, under the same conditions. -/
theorem C94_careful_call (P : ProgramD) (hP : P.Careful) (depth : Nat) (busy : List Obj) (h : Scene) (hk : Kept busy h) (op : Op)
    (hm : ∀ o, Mentions op o → h.live o = true) :
    ¬(step P (nested P depth) busy h op).Dangles ∧ ∀ h', (step P (nested P depth) busy h op).Returns h' → Kept busy h' := by
  have := step_clear (polite_nested hP depth) hk hm
  exact ⟨fun ⟨o, ho⟩ => this.1 o ho, this.2⟩

/-- C94: apart from uses of destroyed objects, the program does what it would do if nothing were destroyed. -/
theorem C94_as_if (P : ProgramD) (Q : Program) (hP : P.Calls Q) (depth : Nat) (h : Scene) (acts : List Act) :
    (run P depth h acts).Follows (·.w) (runN Q depth h.w (callsOf acts)) :=
  acts_follow (fun g op => step_follows hP (nested_follows hP depth) (nested_destroy P depth) [] g op) (fun _ _ => rfl) acts h

/-- C94: a careful program ends in the state in which it would end if nothing were destroyed, and goes wrong where that one does. -/
theorem C94_careful_as_if (P : ProgramD) (Q : Program) (hP : P.Careful) (hQ : P.Calls Q) (depth : Nat) (h : Scene) (hk : Kept [] h)
    (acts : List Act) (ha : Heeds (act P (nested P depth) []) [] h acts) :
    ((runN Q depth h.w (callsOf acts)).run = none ↔ (run P depth h acts).run = none) ∧
    (∀ f, (runN Q depth h.w (callsOf acts)).run = some (.error f) ↔ (run P depth h acts).run = some (.error (.fault f))) ∧
    ∀ w', (runN Q depth h.w (callsOf acts)).run = some (.ok w') ↔ ∃ live', (run P depth h acts).Returns ⟨w', live'⟩ := by
  have hc := (C94_careful P hP depth h hk acts ha).1
  have hf := C94_as_if P Q hQ depth h acts
  unfold RunD.Follows at hf
  unfold RunD.Returns
  cases hr : (run P depth h acts).run with
  | none =>
    rw [hr] at hf
    dsimp only at hf
    rw [hf]
    refine ⟨⟨fun _ => rfl, fun _ => rfl⟩, fun f => ⟨fun h => (by cases h), fun h => (by cases h)⟩, fun w' => ⟨fun h => (by cases h), ?_⟩⟩
    rintro ⟨_, h⟩; cases h
  | some r =>
    rw [hr] at hf
    cases r with
    | ok g =>
      dsimp only at hf
      rw [hf]
      refine ⟨⟨fun h => (by cases h), fun h => (by cases h)⟩, fun f => ⟨fun h => (by cases h), fun h => (by cases h)⟩, fun w' => ⟨?_, ?_⟩⟩
      · intro h; cases h; exact ⟨g.live, rfl⟩
      · rintro ⟨_, h⟩; cases h; rfl
    | error e =>
      cases e with
      | fault e =>
        dsimp only at hf
        rw [hf]
        refine ⟨⟨fun h => (by cases h), fun h => (by cases h)⟩, fun f => ⟨fun h => (by cases h; rfl), fun h => (by cases h; rfl)⟩,
          fun w' => ⟨fun h => (by cases h), ?_⟩⟩
        rintro ⟨_, h⟩; cases h
      | dangling o => exact (hc ⟨o, hr⟩).elim

theorem act_later (P : ProgramD) (depth : Nat) (busy : List Obj) (h : Scene) (a : Act) : Yields (act P (nested P depth) busy h a) (Later h) := by
  cases a with
  | call op => exact step_later (nested_later P depth) busy h op
  | destroy o => intro g hg; rw [destroy_drops h o g hg]; exact drop_later h o

/-- C94: whatever the callbacks do, what has been destroyed is not there again later, and in a run that returns, all who are told something
and all objects that change existed at its start. -/
theorem C94_only_living (P : ProgramD) (depth : Nat) (h h' : Scene) (acts : List Act) (hr : (run P depth h acts).Returns h') :
    (∀ o, h'.live o = true → h.live o = true) ∧ OnlyLiving h.live h.w h'.w := by
  have := yields_foldlM (act P (nested P depth) []) (act_later P depth []) acts h (later_refl h) h' hr
  exact ⟨this.fewer, this.only⟩

/-- C94: the same for what a callback does. -/
theorem C94_only_living_nested (P : ProgramD) (depth : Nat) (busy : List Obj) (h h' : Scene) (acts : List Act)
    (hr : (acts.foldlM (nested P depth busy) h).Returns h') : (∀ o, h'.live o = true → h.live o = true) ∧ OnlyLiving h.live h.w h'.w := by
  have := yields_foldlM (nested P depth busy) (nested_later P depth busy) acts h (later_refl h) h' hr
  exact ⟨this.fewer, this.only⟩

/-! ## What is still used -/

/-- C94: a parser is used after it has told its consumer that the stream is given up because the parser is reset, so a reset that returns
has not destroyed it, whatever the callbacks do. The same holds for the parser of the current request if the request is ended. -/
theorem C94_reset (P : ProgramD) (depth : Nat) (busy : List Obj) (h h' : Scene) (n : Nat) (op : Op)
    (ho : op = .parserReset n ∨ (op = .finish ∨ op = .abort ∨ op = .notifyReceived) ∧ h.w.station.callbacks.configData = some n)
    (hr : (step P (nested P depth) busy h op).Returns h') : h'.live (.parser n) = true := by
  have fin : h.w.station.callbacks.configData = some n → (finish P (nested P depth) busy h).Returns h' → h'.live (.parser n) = true :=
    fun hc hr => (finish_later (nested_later P depth) busy h h' hr).2 n hc
  obtain ⟨u, -, hr⟩ := returns_bind hr
  rcases ho with rfl | ⟨rfl | rfl | rfl, hc⟩
  · exact (parserReset_later (nested_later P depth) busy h n h' hr).2
  · exact fin hc hr
  · exact fin hc hr
  · exact fin hc hr

/-- C94: a parser is used after every call for a value, and after it is reset by a packet of the wrong length. If it has been destroyed
when a packet has been handled, then by the call that said that the stream is over, at a time when the parser was no longer processing. -/
theorem C94_packet (P : ProgramD) (depth : Nat) (busy : List Obj) (h h' : Scene) (n : Nat) (d : Data)
    (hr : (step P (nested P depth) busy h (.parserAdd n d)).Returns h') (hd : h'.live (.parser n) = false) :
    ∃ (g : Scene) (a : ConsumerAction), (a = .complete ∨ a = .aborted) ∧ g.live (.parser n) = true ∧ (g.w.parsers n).isProcessing = false ∧
      (tellConsumers P (nested P depth) busy g ((g.w.parsers n).notify a)).Returns h' := by
  obtain ⟨u, -, hr⟩ := returns_bind hr
  rcases (parserAdd_later (nested_later P depth) busy h n d h' hr).2 with hl | he
  · rw [hl] at hd; cases hd
  · exact he

/-- C94: a request for an engine that returns was ignored, or it went like this, whatever the callbacks do: the former request was ended,
the new parser existed after that and was started, and three packets were sent. The engine existed after the first one, and, if its name has
more than 8 characters, after the second one. The lists say what the callbacks must not destroy at each time. -/
theorem C94_engine (P : ProgramD) (depth : Nat) (busy : List Obj) (h h' : Scene) (e : Nat) (p : Option Nat)
    (hr : (step P (nested P depth) busy h (.requestEngine e p)).Returns h') :
    h' = h ∨ ∃ (g0 g2 g3 : Scene) (id : Identifier) (len : Nat) (m1 m2 m3 : List Byte),
      (finish P (nested P depth) (p.toList.map .parser ++ [.engine e] ++ busy) h).Returns g0 ∧ (∀ n, p = some n → g0.live (.parser n) = true) ∧
      (send8 P (nested P depth) (.engine e :: busy) (g0.requested p) id m1).Returns g2 ∧
      g2.live (.engine e) = true ∧ strlen (g2.w.engines e).info.name = .ok len ∧
      (send8 P (nested P depth) ((if 8 < len then [.engine e] else []) ++ busy) g2 id m2).Returns g3 ∧
      (8 < len → g3.live (.engine e) = true) ∧
      (send8 P (nested P depth) busy g3 id m3).Returns h' := by
  obtain ⟨u, hu, hr⟩ := returns_bind hr
  rcases (requestEngine_later (nested_later P depth) busy h [.engine e] (fun w => (w.engines e).info) p h' hr).2 with rfl | hn
  · exact .inl rfl
  · obtain ⟨g0, g2, g3, id, len, m1, m2, m3, h1, h2, h3, h4, h5, h6, h7, h8⟩ := hn
    exact .inr ⟨g0, g2, g3, id, len, m1, m2, m3, h1, h2, h3, h4 _ (List.mem_singleton.mpr rfl), h5, h6,
      fun hl => h7 hl _ (List.mem_singleton.mpr rfl), h8⟩

theorem act_needs (P : ProgramD) (depth : Nat) (busy : List Obj) (h h' : Scene) (a : Act) (o : Obj) (ha : Needs a o)
    (hr : (act P (nested P depth) busy h a).Returns h') : h.live o = true := by
  cases ha with
  | destroy =>
    obtain ⟨u, hu, -⟩ := returns_bind hr
    exact returns_use hu _ (List.mem_singleton.mpr rfl)
  | _ =>
    obtain ⟨u, hu, -⟩ := returns_bind hr
    exact returns_use hu _ (List.mem_cons_self ..)

/-- C94: what has been destroyed cannot be destroyed again, and none of its functions can be called: a run that does so does not return,
whatever the callbacks do and whatever happens in between. -/
theorem C94_once (P : ProgramD) (depth : Nat) (h h' : Scene) (o : Obj) (before between after : List Act) (a : Act) (ha : Needs a o) :
    ¬(run P depth h (before ++ .destroy o :: (between ++ a :: after))).Returns h' := by
  intro hr
  unfold run at hr
  rw [List.foldlM_append] at hr
  obtain ⟨g1, -, hr⟩ := returns_bind hr
  rw [List.foldlM_cons] at hr
  obtain ⟨g2, h2, hr⟩ := returns_bind hr
  rw [List.foldlM_append] at hr
  obtain ⟨g3, h3, hr⟩ := returns_bind hr
  rw [List.foldlM_cons] at hr
  obtain ⟨g4, h4, -⟩ := returns_bind hr
  have e1 := act_needs P depth [] g3 g4 a o ha h4
  have e2 := (C94_only_living P depth g2 g3 between h3).1 o e1
  have e3 : g2 = g1.drop o := destroy_drops g1 o g2 h2
  rw [e3] at e2
  simp [drop] at e2

/-! ## A program that gives up its parser at the end of the stream -/

/-- The end-of-stream callbacks end the request and destroy its parser, unless a function further up still needs it. -/
def discarding (n : Nat) : ProgramD := fun busy h e =>
  match e with
  | .streamEnd .. => if h.w.station.callbacks.configData = some n ∧ .parser n ∉ busy then [.call .finish, .destroy (.parser n)] else []
  | _ => []

/-- C94: such a program is careful, so it uses no destroyed object (C94_careful). -/
theorem C94_discarding (n : Nat) : (discarding n).Careful := by
  intro depth busy h e hk
  unfold discarding
  split
  · split
    · rename_i hc
      refine .call h .finish _ (fun o ho => by cases ho) fun h' hr => ?_
      have hfin : (h'.live (.parser n) = true) ∧ h'.w.station.callbacks.configData = none := by
        cases depth with
        | zero => cases hr
        | succ depth =>
          obtain ⟨u, -, hr⟩ := returns_bind hr
          exact ⟨(finish_later (nested_later (discarding n) depth) busy h h' hr).2 n hc.1, finish_none _ h h' hr⟩
      refine .destroy h' _ _ hfin.1 ?_ ?_ hc.2 (.nil _)
      · intro hs
        cases hs with
        | parser _ h => rw [hfin.2] at h; cases h
      · intro o' _ hp
        cases hp
    · exact .nil h
  · exact .nil h

/-! ## Examples -/

/-- A program with one engine consumer, one engine and one end-of-stream callback. -/
private def little : World := World.new ⟨32⟩ (fun _ => .loco LocoConsumer.construct) (fun _ => Locomotive.construct [])

/-- The consumer and the station are set up, the stream is started. -/
private def prepare : List Act :=
  [.call (.begin_ 1#16 { tx := some 0, configData := some 0 }), .call (.setEngine 0 (some 0)), .call (.setEndCallback 0 (some 5)),
    .call (.parserStart 0 (some 0)), .call (.parserStartStream 0)]

/-- The first packet of a stream without text. -/
private def noText : Data := { dlc := 6#8 }

/-- How a program goes wrong, or which ends of streams it was told, how many calls there were, and which of the objects are left. -/
private def ending (r : RunD Scene) (os : List Obj) : Option (Except Misuse (List (Nat × Bool) × Nat × List Obj)) :=
  r.run.map fun x => x.map fun h =>
    (h.w.log.filterMap fun | .streamEnd cb _ b _ => some (cb, b) | _ => none, h.w.log.length, os.filter h.live)

/-- The end-of-stream callback ends the request and destroys everything, itself included. -/
private def tearDown : ProgramD := fun _ _ e =>
  match e with
  | .streamEnd .. => [.call .finish, .destroy (.parser 0), .destroy (.consumer 0), .destroy (.engine 0), .destroy (.endCallback 5)]
  | _ => []

/-- After a complete stream that does no harm. -/
example : ending (run tearDown 3 ⟨little, fun _ => true⟩ (prepare ++ [.call (.parserAdd 0 noText)])) [.parser 0, .consumer 0, .engine 0, .tx 0] =
    some (.ok ([(5, true)], 2, [.tx 0])) := rfl

/-- The end-of-stream callback destroys the parser, without ending the request. -/
private def hasty : ProgramD := fun _ _ e =>
  match e with
  | .streamEnd .. => [.destroy (.parser 0)]
  | _ => []

/-- If the parser is reset, it is used after that. -/
example : ending (run hasty 3 ⟨little, fun _ => true⟩ (prepare ++ [.call (.parserReset 0)])) [] = some (.error (.dangling (.parser 0))) := rfl

example : ending (run hasty 3 ⟨little, fun _ => true⟩ (prepare ++ [.call .abort])) [] = some (.error (.dangling (.parser 0))) := rfl

/-- After a complete stream, the station still uses it when the next request is made. -/
example : ending (run hasty 3 ⟨little, fun _ => true⟩ (prepare ++ [.call (.parserAdd 0 noText), .call (.requestEngineList 0#8 none)])) [] =
    some (.error (.dangling (.parser 0))) := rfl

/-- The careful version leaves the parser alone if it is reset, and destroys it when the stream is complete. -/
example : ending (run (discarding 0) 3 ⟨little, fun _ => true⟩ (prepare ++ [.call (.parserReset 0)])) [.parser 0] =
    some (.ok ([(5, false)], 2, [.parser 0])) := rfl

example : ending (run (discarding 0) 3 ⟨little, fun _ => true⟩ (prepare ++ [.call (.parserAdd 0 noText)])) [.parser 0, .consumer 0] =
    some (.ok ([(5, true)], 2, [.consumer 0])) := rfl

/-- The callback for packets destroys the engine with the given packet. -/
private def scrapping (m : Nat) : ProgramD := fun _ h e =>
  match e with
  | .call (.tx ..) => if h.w.log.length = m then [.destroy (.engine 0)] else []
  | _ => []

/-- An engine of this name is requested. -/
private def request (name : List Byte) : List Act :=
  [.call (.begin_ 1#16 { tx := some 0 }), .call (.setName 0 name), .call (.requestEngine 0 none)]

/-- A short name is read after the first packet, and not after the second one. -/
example : ending (run (scrapping 1) 3 ⟨little, fun _ => true⟩ (request [65#8, 0#8])) [.engine 0] = some (.error (.dangling (.engine 0))) := rfl

example : ending (run (scrapping 2) 3 ⟨little, fun _ => true⟩ (request [65#8, 0#8])) [.engine 0] = some (.ok ([], 3, [])) := rfl

/-- A longer one is. -/
example : ending (run (scrapping 2) 3 ⟨little, fun _ => true⟩ (request (List.replicate 9 65#8 ++ [0#8]))) [.engine 0] =
    some (.error (.dangling (.engine 0))) := rfl

example : ending (run (scrapping 3) 3 ⟨little, fun _ => true⟩ (request (List.replicate 9 65#8 ++ [0#8]))) [.engine 0] = some (.ok ([], 3, [])) := rfl

/-- The main program destroys the engine twice, or uses it after that. -/
example : ending (run (fun _ _ _ => []) 3 ⟨little, fun _ => true⟩ [.destroy (.engine 0), .call .sendGo, .destroy (.engine 0)]) [] =
    some (.error (.fault .nullDeref)) ∧
    ending (run (fun _ _ _ => []) 3 ⟨little, fun _ => true⟩ [.destroy (.engine 0), .destroy (.engine 0)]) [] = some (.error (.dangling (.engine 0))) ∧
    ending (run (fun _ _ _ => []) 3 ⟨little, fun _ => true⟩ [.destroy (.engine 0), .call (.setName 0 [])]) [] =
      some (.error (.dangling (.engine 0))) := ⟨rfl, rfl, rfl⟩

/-- At the start of the program everything exists. -/
example : Kept [] ⟨little, fun _ => true⟩ := ⟨⟨fun _ _ => rfl, fun _ _ _ _ => rfl⟩, fun _ h => by cases h⟩

end Scene

end RR32
