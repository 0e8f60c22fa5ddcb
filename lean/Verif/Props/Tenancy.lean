import Verif.Spec.Tenancy
import Verif.Props.Departing
import Verif.Props.Storage

/-! # C113: callbacks destroy objects, and the main program makes others in their places -/

set_option autoImplicit false

namespace RR32

namespace Scene

open World (Mentions NoDangling)

theorem create_clear {h : Scene} {b : Newborn} (hk : Kept [] h) : Clear (Kept []) (h.create b) := by
  unfold create
  refine clear_bind (R := fun w => h.w.create b = .ok w) (clear_lift fun _ h => h) fun w hw => ?_
  exact clear_pure ⟨(World.create_no_dangling hk.pointers hw).2, fun o ho => by cases ho⟩

theorem deeds_clear {P : ProgramD} (hP : P.Careful) (depth : Nat) {h : Scene} {ds : List Deed} (hh : HeedsS (deed P depth) h ds)
    (hk : Kept [] h) : Clear (Kept []) (runDeeds P depth h ds) := by
  unfold runDeeds
  induction hh with
  | nil h => exact clear_pure hk
  | call h op ds hm hn ih =>
    rw [List.foldlM_cons]
    have := step_clear (polite_nested hP depth) hk hm
    exact clear_bind (R := fun g => Kept [] g ∧ (deed P depth h (.call op)).Returns g) ⟨this.1, fun g hg => ⟨this.2 g hg, hg⟩⟩
      fun g hg => ih g hg.2 hg.1
  | destroy h o ds ho hs hp hn ih =>
    rw [List.foldlM_cons]
    have hd : Clear (Kept []) (([Act.destroy o]).foldlM (act P (nested P depth) []) h) :=
      heeds_clear (fun g op hg hm => step_clear (polite_nested hP depth) hg hm) (fun _ _ => rfl)
        (.destroy h o [] ho hs hp (by intro h; cases h) (.nil _)) hk
    have he : (h.destroy o).run = some (.ok (h.drop o)) := by
      unfold destroy
      exact bind_returns (a := ()) (by show some (Out.check h.live [o]) = _; rw [World.check_ok (by intro x hx; rw [List.mem_singleton.mp hx]; exact ho)])
    have hk' : Kept [] (h.drop o) := by
      refine hd.2 _ ?_
      rw [List.foldlM_cons]
      exact (bind_returns he).trans rfl
    refine clear_bind (R := fun g => g = h.drop o) ⟨?_, ?_⟩ (fun g hg => by subst hg; exact ih hk')
    · intro x hx; change (h.destroy o).run = _ at hx; rw [he] at hx; cases hx
    · intro g hg; change (h.destroy o).run = _ at hg; rw [he] at hg; cases hg; rfl
  | create h b ds hb hn ih =>
    rw [List.foldlM_cons]
    show Clear (Kept []) ((RunD.lift (h.w.create b) >>= fun w => pure (⟨w, World.adding h.live b.obj⟩ : Scene)) >>= fun g => ds.foldlM (deed P depth) g)
    refine clear_bind (R := fun g => ∃ w, h.w.create b = .ok w ∧ g = ⟨w, World.adding h.live b.obj⟩) ?_ ?_
    · exact clear_bind (R := fun w => h.w.create b = .ok w) (clear_lift fun _ h => h) fun w hw => clear_pure ⟨w, hw, rfl⟩
    · rintro g ⟨w, hw, rfl⟩
      exact ih w hw ⟨(World.create_no_dangling hk.pointers hw).2, fun o ho => by cases ho⟩

/-- C113: if the callbacks and the main program are careful, no object is used that does not exist, and nothing that exists ever points to
something that does not, though storage is used again. -/
theorem C113_careful (P : ProgramD) (hP : P.Careful) (depth : Nat) (h : Scene) (hk : Kept [] h) (ds : List Deed)
    (hd : HeedsS (deed P depth) h ds) :
    ¬(runDeeds P depth h ds).Dangles ∧ ∀ h', (runDeeds P depth h ds).Returns h' → NoDangling h'.live h'.w := by
  have := deeds_clear hP depth hd hk
  exact ⟨fun ⟨o, ho⟩ => this.1 o ho, fun h' hr => (this.2 h' hr).pointers⟩

/-- C113: apart from uses of destroyed objects, the program does what it would do if nothing were destroyed, and what is made anew were
assigned to what was there. -/
theorem C113_as_if (P : ProgramD) (Q : Program) (hP : P.Calls Q) (depth : Nat) (ds : List Deed) : ∀ (h : Scene),
    (runDeeds P depth h ds).Follows (·.w) (World.foreverN Q depth h.w ds) := by
  unfold runDeeds
  induction ds with
  | nil => intro h; exact follows_pure rfl
  | cons d ds ih =>
    intro h
    rw [List.foldlM_cons]
    cases d with
    | call op =>
      unfold World.foreverN
      exact follows_bind (step_follows hP (nested_follows hP depth) (nested_destroy P depth) [] h op) ih
    | destroy o =>
      show (((h.use [o] >>= fun _ => pure (h.drop o)) >>= _ : RunD Scene)).Follows _ _
      rw [bind_assoc]
      refine follows_use ?_
      rw [pure_bind]
      exact ih (h.drop o)
    | create b =>
      show (((RunD.lift (h.w.create b) >>= fun w => pure _) >>= _ : RunD Scene)).Follows _ _
      rw [bind_assoc]
      unfold World.foreverN
      refine follows_lift_bind fun w _ => ?_
      rw [pure_bind]
      exact ih ⟨w, World.adding h.live b.obj⟩

/-- C113: a careful program ends in the state in which it would end if nothing were destroyed, and goes wrong, or runs out of stack, where
that one does. -/
theorem C113_careful_as_if (P : ProgramD) (Q : Program) (hP : P.Careful) (hQ : P.Calls Q) (depth : Nat) (h : Scene) (hk : Kept [] h)
    (ds : List Deed) (hd : HeedsS (deed P depth) h ds) :
    ((World.foreverN Q depth h.w ds).run = none ↔ (runDeeds P depth h ds).run = none) ∧
    (∀ f, (World.foreverN Q depth h.w ds).run = some (.error f) ↔ (runDeeds P depth h ds).run = some (.error (.fault f))) ∧
    ∀ w', (World.foreverN Q depth h.w ds).run = some (.ok w') ↔ ∃ live', (runDeeds P depth h ds).Returns ⟨w', live'⟩ := by
  have hc := (C113_careful P hP depth h hk ds hd).1
  have hf := C113_as_if P Q hQ depth ds h
  unfold RunD.Follows at hf
  unfold RunD.Returns
  cases hr : (runDeeds P depth h ds).run with
  | none =>
    rw [hr] at hf
    simp only at hf
    rw [hf]
    simp
  | some x =>
    cases x with
    | error m =>
      cases m with
      | fault f => rw [hr] at hf; simp only at hf; rw [hf]; simp
      | dangling o => exact absurd ⟨o, hr⟩ hc
    | ok g =>
      rw [hr] at hf
      simp only at hf
      rw [hf]
      refine ⟨by simp, by simp, fun w' => ⟨?_, ?_⟩⟩
      · intro h; cases h; exact ⟨g.live, rfl⟩
      · rintro ⟨l, h⟩; cases h; rfl

/-! ## What exists -/

/-- C113: a creation tells and changes no other object, and the objects that exist are then the new one and those that existed. -/
theorem C113_made {P : ProgramD} {depth : Nat} {h h' : Scene} {b : Newborn} (hr : (deed P depth h (.create b)).Returns h') :
    (∀ o, h'.live o = true ↔ o = b.obj ∨ h.live o = true) ∧ (∀ o, o ≠ b.obj → World.LeftAlone o h.w h'.w) ∧
    ∀ o, ¬h'.w.Points b.obj o := by
  obtain ⟨w, hw, hr⟩ := returns_bind (show (RunD.lift (h.w.create b) >>= fun w => pure ⟨w, World.adding h.live b.obj⟩ : RunD Scene).Returns h' from hr)
  cases hr
  have hw : h.w.create b = .ok w := by
    cases hc : h.w.create b with
    | error e => rw [hc] at hw; cases hw
    | ok v => rw [hc] at hw; cases hw; rfl
  exact ⟨fun o => World.adding_iff .., fun o ho => World.C111_others hw (fun h => ho h.symm), fun o hp => (World.C111_new hw _ _ hp).1 rfl⟩

theorem gone_stays (P : ProgramD) (depth : Nat) (o : Obj) (ds : List Deed) (hb : ∀ b, .create b ∈ ds → b.obj ≠ o) :
    ∀ (h h' : Scene), h.live o = false → (runDeeds P depth h ds).Returns h' → h'.live o = false ∧ World.LeftAlone o h.w h'.w := by
  induction ds with
  | nil => intro h h' ho hr; cases hr; exact ⟨ho, .refl _ _⟩
  | cons d ds ih =>
    intro h h' ho hr
    unfold runDeeds at hr
    rw [List.foldlM_cons] at hr
    obtain ⟨g, hg, hr⟩ := returns_bind hr
    have h1 : g.live o = false ∧ World.LeftAlone o h.w g.w := by
      have acts : ∀ a, (act P (nested P depth) [] h a).Returns g → g.live o = false ∧ World.LeftAlone o h.w g.w := by
        intro a ha
        have hl := act_later P depth [] h a g ha
        refine ⟨?_, World.left_alone_of_living hl.only ho⟩
        cases he : g.live o with
        | false => rfl
        | true => rw [hl.fewer o he] at ho; cases ho
      cases d with
      | call op => exact acts (.call op) hg
      | destroy x => exact acts (.destroy x) hg
      | create b =>
        have hne := hb b (List.mem_cons_self ..)
        obtain ⟨h1, h2, -⟩ := C113_made hg
        refine ⟨?_, h2 o hne.symm⟩
        cases he : g.live o with
        | false => rfl
        | true =>
          rcases (h1 o).mp he with h3 | h3
          · exact absurd h3.symm hne
          · rw [ho] at h3; cases h3
    obtain ⟨h2, h3⟩ := ih (fun b hb' => hb b (List.mem_cons_of_mem _ hb')) g h' h1.1 hr
    exact ⟨h2, h1.2.trans h3⟩

/-- C113: from its destruction on, until something is made in its place, an object does not exist, is told nothing and does not change in a
run that returns, whatever the callbacks and the main program do. -/
theorem C113_gone (P : ProgramD) (depth : Nat) (h h' : Scene) (o : Obj) (ds : List Deed) (hb : ∀ b, .create b ∈ ds → b.obj ≠ o)
    (hr : (runDeeds P depth h (.destroy o :: ds)).Returns h') : h'.live o = false ∧ World.LeftAlone o h.w h'.w := by
  unfold runDeeds at hr
  rw [List.foldlM_cons] at hr
  obtain ⟨g, hg, hr⟩ := returns_bind hr
  obtain rfl : g = h.drop o := destroy_drops h o g hg
  exact gone_stays P depth o ds hb (h.drop o) h' (by simp [drop]) hr

/-- C113: a run that destroys an object again, or calls one of its functions, before something is made in its place, does not return. -/
theorem C113_once (P : ProgramD) (depth : Nat) (h h' : Scene) (o : Obj) (before between after : List Deed) (a : Act) (ha : Needs a o)
    (hb : ∀ b, .create b ∈ between → b.obj ≠ o) :
    ¬(runDeeds P depth h (before ++ .destroy o :: (between ++ ofAct a :: after))).Returns h' := by
  intro hr
  unfold runDeeds at hr
  rw [List.foldlM_append] at hr
  obtain ⟨g1, -, hr⟩ := returns_bind hr
  rw [← List.cons_append, List.foldlM_append] at hr
  obtain ⟨g2, h2, hr⟩ := returns_bind hr
  rw [List.foldlM_cons] at hr
  obtain ⟨g3, h3, -⟩ := returns_bind hr
  have e1 := (C113_gone P depth g1 g2 o between hb h2).1
  have h3 : (act P (nested P depth) [] g2 a).Returns g3 := by cases a <;> exact h3
  rw [act_needs P depth [] g2 g3 a o ha h3] at e1
  cases e1

/-! ## Examples -/

/-- A program with one engine consumer, one engine and one end-of-stream callback. -/
private def little : World := World.new ⟨32⟩ (fun _ => .loco LocoConsumer.construct) (fun _ => Locomotive.construct [])

/-- A parser, with arbitrary bytes in its arrays. -/
private def aParser : Newborn :=
  .parser 0 (List.replicate 31 0xAA#8) (List.replicate 11 0xAA#8) (List.replicate 11 0xAA#8) (List.replicate 26 0xAA#8)

/-- The consumer is set up and the stream is received. When it is complete, the end-of-stream callback destroys the parser (`discarding`).
The main program then makes another one in its place, and uses it. -/
private def anew : List Deed :=
  [.call (.begin_ 1#16 { tx := some 0, configData := some 0 }), .call (.setEngine 0 (some 0)), .call (.setEndCallback 0 (some 5)),
    .call (.parserStart 0 (some 0)), .call (.parserStartStream 0), .call (.parserAdd 0 { dlc := 6#8 }), .create aParser,
    .call (.parserStart 0 none), .call (.parserStartStream 0)]

/-- Whether a run returns, and then whether the parser exists. -/
private def parserLeft (r : RunD Scene) : Option Bool := (r.run.bind Except.toOption).map fun h => h.live (.parser 0)

/-- The history returns; before the creation there is no parser, after it there is one. -/
example : parserLeft (runDeeds (discarding 0) 3 ⟨little, fun _ => true⟩ (anew.take 6)) = some false ∧
    parserLeft (runDeeds (discarding 0) 3 ⟨little, fun _ => true⟩ anew) = some true := by decide +kernel

/-- The program meets the hypotheses. -/
example : (discarding 0).Careful ∧ Kept [] ⟨little, fun _ => true⟩ ∧ HeedsS (deed (discarding 0) 3) ⟨little, fun _ => true⟩ anew := by
  refine ⟨C94_discarding 0, ⟨⟨fun _ _ => rfl, fun _ _ _ _ => rfl⟩, fun _ h => by cases h⟩, ?_⟩
  refine .call _ _ _ (fun _ _ => rfl) fun h1 r1 => ?_
  cases r1
  refine .call _ _ _ (fun _ _ => rfl) fun h2 r2 => ?_
  cases r2
  refine .call _ _ _ (fun _ _ => rfl) fun h3 r3 => ?_
  cases r3
  refine .call _ _ _ (fun _ _ => rfl) fun h4 r4 => ?_
  cases r4
  refine .call _ _ _ (fun _ _ => rfl) fun h5 r5 => ?_
  cases r5
  refine .call _ _ _ (fun _ _ => rfl) fun h6 r6 => ?_
  cases r6
  refine .create _ _ _ rfl fun w hw => ?_
  refine .call _ _ _ (fun o ho => by cases ho; rfl) fun h7 r7 => ?_
  cases hw
  cases r7
  exact .call _ _ _ (fun o ho => by cases ho; rfl) fun h8 r8 => .nil _

/-- A consumer is destroyed and a parser is made after that. -/
example : ∃ h', (runDeeds (discarding 0) 3 ⟨little, fun _ => true⟩ [.destroy (.consumer 7), .create aParser, .call (.parserStart 0 (some 0))]).Returns h' ∧
    h'.live (.parser 0) = true ∧ ∀ b, .create b ∈ [Deed.create aParser, .call (.parserStart 0 (some 0))] → b.obj ≠ .consumer 7 := by
  refine ⟨_, rfl, rfl, ?_⟩
  intro b hb
  simp only [List.mem_cons, Deed.create.injEq, List.not_mem_nil, or_false, reduceCtorEq] at hb
  subst hb
  intro h; cases h

/-- The end-of-stream callback destroys the parser, without ending the request. -/
private def rash : ProgramD := fun _ _ e =>
  match e with
  | .streamEnd .. => [.destroy (.parser 0)]
  | _ => []

/-- The station then uses the destroyed parser when the request is ended; with another one in its place it takes that one for it, and nothing
is noticed. -/
example : (runDeeds rash 3 ⟨little, fun _ => true⟩ (anew.take 6 ++ [.call .finish])).run.map (fun r => match r with
      | .error (.dangling o) => o == .parser 0
      | _ => false) = some true ∧
    parserLeft (runDeeds rash 3 ⟨little, fun _ => true⟩ (anew.take 7 ++ [.call .finish])) = some true := by decide +kernel

end Scene

end RR32
