import Verif.Proofs.NestedFrame

/-!
# A program whose callbacks only send, beside the same program with silent callbacks
-/

set_option autoImplicit false

namespace RR32

/-- Callbacks that call nothing. -/
def World.mute : Program := fun _ _ => []

/-- If the first run returns, so does the second, and the results are related; if `t`, also the other way round. -/
def Run.Mirrors {α β : Type} (x : Run α) (t : Prop) (y : Run β) (Q : α → β → Prop) : Prop :=
  (∀ a, x.Returns a → ∃ b, y.Returns b ∧ Q a b) ∧ (t → ∀ b, y.Returns b → ∃ a, x.Returns a ∧ Q a b)

namespace World

theorem mirrors_pure {α β : Type} {t : Prop} {a : α} {b : β} {Q : α → β → Prop} (h : Q a b) : (pure a : Run α).Mirrors t (pure b) Q := by
  constructor
  · intro a' ha
    have := returns_pure.mp ha
    subst this
    exact ⟨b, returns_pure.mpr rfl, h⟩
  · intro _ b' hb
    have := returns_pure.mp hb
    subst this
    exact ⟨a, returns_pure.mpr rfl, h⟩

theorem mirrors_lift {α : Type} {t : Prop} (r : Res α) : (Run.lift r).Mirrors t (Run.lift r) Eq :=
  ⟨fun a ha => ⟨a, ha, rfl⟩, fun _ a ha => ⟨a, ha, rfl⟩⟩

theorem mirrors_fail {α β : Type} {t : Prop} {x : Run α} {y : Run β} {Q : α → β → Prop} (hx : ∀ a, ¬x.Returns a) (hy : ∀ b, ¬y.Returns b) :
    x.Mirrors t y Q := ⟨fun a ha => absurd ha (hx a), fun _ b hb => absurd hb (hy b)⟩

theorem mirrors_mono {α β : Type} {t : Prop} {x : Run α} {y : Run β} {Q R : α → β → Prop} (h : x.Mirrors t y Q) (hQ : ∀ a b, Q a b → R a b) :
    x.Mirrors t y R :=
  ⟨fun a ha => let ⟨b, h1, h2⟩ := h.1 a ha; ⟨b, h1, hQ a b h2⟩, fun ht b hb => let ⟨a, h1, h2⟩ := h.2 ht b hb; ⟨a, h1, hQ a b h2⟩⟩

theorem mirrors_bind {α β γ δ : Type} {t : Prop} {x : Run α} {y : Run β} {f : α → Run γ} {g : β → Run δ} {Q : α → β → Prop} {R : γ → δ → Prop}
    (h : x.Mirrors t y Q) (hf : ∀ a b, Q a b → (f a).Mirrors t (g b) R) : (x >>= f).Mirrors t (y >>= g) R := by
  constructor
  · intro c hc
    obtain ⟨a, h1, h2⟩ := returns_bind.mp hc
    obtain ⟨b, h3, h4⟩ := h.1 a h1
    obtain ⟨d, h5, h6⟩ := (hf a b h4).1 c h2
    exact ⟨d, returns_bind.mpr ⟨b, h3, h5⟩, h6⟩
  · intro ht d hd
    obtain ⟨b, h1, h2⟩ := returns_bind.mp hd
    obtain ⟨a, h3, h4⟩ := h.2 ht b h1
    obtain ⟨c, h5, h6⟩ := (hf a b h4).2 ht d h2
    exact ⟨c, returns_bind.mpr ⟨a, h3, h5⟩, h6⟩

theorem mirrors_foldlM {α β γ : Type} {t : Prop} {f : α → γ → Run α} {g : β → γ → Run β} {Q : α → β → Prop} (l : List γ)
    (h : ∀ c a b, Q a b → (f a c).Mirrors t (g b c) Q) {a : α} {b : β} (hab : Q a b) : (l.foldlM f a).Mirrors t (l.foldlM g b) Q := by
  induction l generalizing a b with
  | nil => exact mirrors_pure hab
  | cons c l ih =>
    rw [List.foldlM_cons, List.foldlM_cons]
    exact mirrors_bind (h c a b hab) (fun a b hab => ih hab)

/-- Not a call of the station on a callback: a call on a consumer or an end-of-stream callback. -/
def _root_.RR32.LogEntry.ofStream : LogEntry → Bool
  | .call _ => false
  | _ => true

/-- The second log is the first with calls of the station on callbacks put in. -/
def Thin (l m : List LogEntry) : Prop := l.Sublist m ∧ l.filter LogEntry.ofStream = m.filter LogEntry.ofStream

theorem Thin.refl (l : List LogEntry) : Thin l l := ⟨List.Sublist.refl _, rfl⟩

theorem Thin.same {l m : List LogEntry} (h : Thin l m) (x : List LogEntry) : Thin (l ++ x) (m ++ x) :=
  ⟨h.1.append (List.Sublist.refl _), by rw [List.filter_append, List.filter_append, h.2]⟩

theorem Thin.more {l m : List LogEntry} (h : Thin l m) (c : Call) : Thin l (m ++ [.call c]) :=
  ⟨h.1.trans (List.sublist_append_left _ _), by rw [List.filter_append, h.2]; simp [LogEntry.ofStream]⟩

/-- The same program with another log. -/
def over (w : World) (l : List LogEntry) : World := { w with log := l }

/-- The first program is the second with calls of the station on callbacks put into the log. -/
def Over (v u : World) : Prop := ∃ l, v = u.over l ∧ Thin u.log l

theorem over_refl (w : World) : Over w w := ⟨w.log, rfl, .refl _⟩

@[simp] theorem over_text (u : World) (l : List LogEntry) (n : Nat) : (u.over l).text n = u.text n := rfl
@[simp] theorem over_setText (u : World) (l : List LogEntry) (n : Nat) (t : TextParser) : (u.over l).setText n t = (u.setText n t).over l := rfl
@[simp] theorem over_parsers (u : World) (l : List LogEntry) : (u.over l).parsers = u.parsers := rfl
@[simp] theorem over_station (u : World) (l : List LogEntry) : (u.over l).station = u.station := rfl
@[simp] theorem over_engines (u : World) (l : List LogEntry) : (u.over l).engines = u.engines := rfl
@[simp] theorem over_processing (u : World) (l : List LogEntry) : (u.over l).processing = u.processing := rfl
@[simp] theorem over_setParser (u : World) (l : List LogEntry) (n : Nat) (p : StreamParser) : (u.over l).setParser n p = (u.setParser n p).over l := rfl
@[simp] theorem over_register (u : World) (l : List LogEntry) (p : Option Nat) : (u.over l).register p = (u.register p).over l := rfl

theorem Over.text {v u : World} (h : Over v u) (n : Nat) : v.text n = u.text n := by obtain ⟨l, rfl, -⟩ := h; rfl
theorem Over.parsers {v u : World} (h : Over v u) : v.parsers = u.parsers := by obtain ⟨l, rfl, -⟩ := h; rfl
theorem Over.station {v u : World} (h : Over v u) : v.station = u.station := by obtain ⟨l, rfl, -⟩ := h; rfl
theorem Over.engines {v u : World} (h : Over v u) : v.engines = u.engines := by obtain ⟨l, rfl, -⟩ := h; rfl
theorem Over.processing {v u : World} (h : Over v u) : v.processing = u.processing := by obtain ⟨l, rfl, -⟩ := h; rfl
theorem Over.setText {v u : World} (h : Over v u) (n : Nat) (t : TextParser) : Over (v.setText n t) (u.setText n t) := by
  obtain ⟨l, rfl, hl⟩ := h; exact ⟨l, rfl, hl⟩
theorem Over.setParser {v u : World} (h : Over v u) (n : Nat) (p : StreamParser) : Over (v.setParser n p) (u.setParser n p) := by
  obtain ⟨l, rfl, hl⟩ := h; exact ⟨l, rfl, hl⟩
theorem Over.register {v u : World} (h : Over v u) (p : Option Nat) : Over (v.register p) (u.register p) := by
  obtain ⟨l, rfl, hl⟩ := h; exact ⟨l, rfl, hl⟩
theorem Over.setStation {v u : World} (h : Over v u) (s : Station) : Over { v with station := s } { u with station := s } := by
  obtain ⟨l, rfl, hl⟩ := h; exact ⟨l, rfl, hl⟩
theorem Over.logAll {v u : World} (h : Over v u) (x : List LogEntry) : Over (v.logAll x) (u.logAll x) := by
  obtain ⟨l, rfl, hl⟩ := h; exact ⟨l ++ x, rfl, hl.same x⟩
theorem Over.more {v u : World} (h : Over v u) (c : Call) : Over (v.logAll [.call c]) u := by
  obtain ⟨l, rfl, hl⟩ := h; exact ⟨l ++ [.call c], rfl, hl.more c⟩

/-- A call on a consumer does not look at the log. -/
theorem callConsumer_over {T : List LogEntry → List LogEntry → Prop} (hT : ∀ l m, T l m → ∀ x, T (l ++ x) (m ++ x)) {u v' : World} {l : List LogEntry}
    (hl : T u.log l) {c : ConsumerCall} (hv : (u.over l).callConsumer c = .ok v') :
    ∃ u', u.callConsumer c = .ok u' ∧ ∃ l', v' = u'.over l' ∧ T u'.log l' := by
  obtain ⟨cn, act⟩ := c
  rcases callConsumer_cases hv with ⟨x, s, k, y, es, h1, h2, h3, rfl⟩ | ⟨x, es, ends, h1, h2, h3, rfl⟩ | ⟨x, ends, h1, h2, h3, rfl⟩ |
    ⟨x, s, k, y, x', h1, h2, h3, rfl⟩ | ⟨x, x', ends, h1, h2, h3, rfl⟩ | ⟨x, x', ends, h1, h2, h3, rfl⟩ | ⟨h1, rfl⟩
  · have g1 : u.consumers cn = .loco x := h1
    have g2 : act = .consume s k y := h2
    have g3 : x.consumeConfigData u.pf u.engines s k y = .ok es := h3
    subst g2
    refine ⟨{ u.logAll [.consumer ⟨cn, .consume s k y⟩] with engines := es }, ?_, ⟨_, rfl, hT _ _ hl [.consumer ⟨cn, .consume s k y⟩]⟩⟩
    simp only [World.callConsumer, World.logAll, g1, g3, bind, Except.bind]
  · have g1 : u.consumers cn = .loco x := h1
    have g2 : act = .complete := h2
    have g3 : x.setStreamComplete u.engines = .ok (es, ends) := h3
    subst g2
    refine ⟨{ u.logAll [.consumer ⟨cn, .complete⟩] with engines := es }.logAll (endLog cn .engine ends), ?_,
      ⟨_, rfl, hT _ _ (hT _ _ hl [.consumer ⟨cn, .complete⟩]) (endLog cn .engine ends)⟩⟩
    simp only [World.callConsumer, World.logAll, g1, g3, bind, Except.bind]
  · have g1 : u.consumers cn = .loco x := h1
    have g2 : act = .aborted := h2
    subst g2
    refine ⟨(u.logAll [.consumer ⟨cn, .aborted⟩]).logAll (endLog cn (fun _ => .nothing) ends), ?_,
      ⟨_, rfl, hT _ _ (hT _ _ hl [.consumer ⟨cn, .aborted⟩]) (endLog cn (fun _ => .nothing) ends)⟩⟩
    simp only [World.callConsumer, World.logAll, g1, h3, bind, Except.bind]
  · have g1 : u.consumers cn = .list x := h1
    have g2 : act = .consume s k y := h2
    have g3 : x.consumeConfigData u.pf s k y = .ok x' := h3
    subst g2
    refine ⟨(u.logAll [.consumer ⟨cn, .consume s k y⟩]).setConsumer cn (.list x'), ?_, ⟨_, rfl, hT _ _ hl [.consumer ⟨cn, .consume s k y⟩]⟩⟩
    simp only [World.callConsumer, World.logAll, g1, g3, bind, Except.bind]
  · have g1 : u.consumers cn = .list x := h1
    have g2 : act = .complete := h2
    subst g2
    refine ⟨((u.logAll [.consumer ⟨cn, .complete⟩]).setConsumer cn (.list x')).logAll (endLog cn .list ends), ?_,
      ⟨_, rfl, hT _ _ (hT _ _ hl [.consumer ⟨cn, .complete⟩]) (endLog cn .list ends)⟩⟩
    simp only [World.callConsumer, World.logAll, g1, h3, bind, Except.bind]
  · have g1 : u.consumers cn = .list x := h1
    have g2 : act = .aborted := h2
    subst g2
    refine ⟨((u.logAll [.consumer ⟨cn, .aborted⟩]).setConsumer cn (.list x')).logAll (endLog cn .list ends), ?_,
      ⟨_, rfl, hT _ _ (hT _ _ hl [.consumer ⟨cn, .aborted⟩]) (endLog cn .list ends)⟩⟩
    simp only [World.callConsumer, World.logAll, g1, h3, bind, Except.bind]
  · have g1 : u.consumers cn = .app := h1
    refine ⟨u.logAll [.consumer ⟨cn, act⟩], ?_, _, rfl, hT _ _ hl [.consumer ⟨cn, act⟩]⟩
    simp only [World.callConsumer, World.logAll, g1]

theorem Over.callConsumer {v u v' : World} (h : Over v u) {c : ConsumerCall} (hv : v.callConsumer c = .ok v') :
    ∃ u', u.callConsumer c = .ok u' ∧ Over v' u' := by
  obtain ⟨l, rfl, hl⟩ := h
  exact callConsumer_over (T := Thin) (fun _ _ h x => h.same x) hl hv

theorem Over.callConsumer' {v u u' : World} (h : Over v u) {c : ConsumerCall} (hu : u.callConsumer c = .ok u') :
    ∃ v', v.callConsumer c = .ok v' ∧ Over v' u' := by
  have h' := h
  obtain ⟨l, rfl, hl⟩ := h'
  obtain ⟨v', hv, -⟩ := callConsumer_over (T := fun _ _ => True) (fun _ _ _ _ => trivial) (u := u.over l) (l := u.log) trivial hu
  obtain ⟨u'', h1, h2⟩ := h.callConsumer hv
  rw [hu] at h1
  injection h1 with h1
  subst h1
  exact ⟨v', hv, h2⟩

/-- Callbacks that only add calls of the station to the log, and that return if `t`. -/
structure AddsCalls (t : Prop) (P : Program) (k : World → Op → Run World) : Prop where
  over : ∀ v u e, Over v u → ∀ v', (react P k v e).Returns v' → Over v' u
  ret : t → ∀ v e, ∃ v', (react P k v e).Returns v'

section
variable {t : Prop} {P : Program} {k k' : World → Op → Run World} (hR : AddsCalls t P k)
include hR

theorem callConsumerN_mirrors (v u : World) (h : Over v u) (c : ConsumerCall) :
    (callConsumerN P k v c).Mirrors t (callConsumerN mute k' u c) Over := by
  have silent : ∀ u1, u.callConsumer c = .ok u1 → (callConsumerN mute k' u c).Returns u1 := by
    intro u1 h3
    unfold callConsumerN
    refine returns_bind.mpr ⟨u1, returns_lift.mpr h3, ?_⟩
    generalize ((u1.log.drop u.log.length).filter u.reachesApp) = es
    induction es with
    | nil => exact returns_pure.mpr rfl
    | cons e es ih => rw [List.foldlM_cons]; exact returns_bind.mpr ⟨u1, returns_pure.mpr rfl, ih⟩
  constructor
  · intro v' hv
    unfold callConsumerN at hv
    obtain ⟨v1, h1, h2⟩ := returns_bind.mp hv
    obtain ⟨u1, h3, h4⟩ := h.callConsumer (returns_lift.mp h1)
    refine ⟨u1, silent u1 h3, ?_⟩
    generalize ((v1.log.drop v.log.length).filter v.reachesApp) = es at h2
    clear h1 h3 hv
    induction es generalizing v1 with
    | nil => rw [← returns_pure.mp h2]; exact h4
    | cons e es ih =>
      rw [List.foldlM_cons] at h2
      obtain ⟨v2, h5, h6⟩ := returns_bind.mp h2
      exact ih v2 (hR.over _ _ _ h4 _ h5) h6
  · intro ht u' hu
    have hu' := hu
    unfold callConsumerN at hu'
    obtain ⟨u1, h1, -⟩ := returns_bind.mp hu'
    have h1 := returns_lift.mp h1
    have e : u' = u1 := by
      have := hu.symm.trans (silent u1 h1)
      injection this with this
      injection this
    subst e
    obtain ⟨v1, h2, h3⟩ := h.callConsumer' h1
    have fold : ∀ (es : List LogEntry) (v1 : World), Over v1 u' → ∃ v', (es.foldlM (react P k) v1).Returns v' ∧ Over v' u' := by
      intro es
      induction es with
      | nil => intro v1 h; exact ⟨v1, returns_pure.mpr rfl, h⟩
      | cons e es ih =>
        intro v1 h
        obtain ⟨v2, h4⟩ := hR.ret ht v1 e
        obtain ⟨v3, h5, h6⟩ := ih v2 (hR.over _ _ _ h _ h4)
        exact ⟨v3, by rw [List.foldlM_cons]; exact returns_bind.mpr ⟨v2, h4, h5⟩, h6⟩
    obtain ⟨v', h4, h5⟩ := fold ((v1.log.drop v.log.length).filter v.reachesApp) v1 h3
    exact ⟨v', returns_bind.mpr ⟨v1, returns_lift.mpr h2, h4⟩, h5⟩

theorem tellEvents_mirrors (v u : World) (h : Over v u) (evs : List ParseEvent) :
    (tellEvents P k v evs).Mirrors t (tellEvents mute k' u evs) Over :=
  mirrors_foldlM _ (fun c a b hab => callConsumerN_mirrors hR a b hab c) h

theorem tellConsumers_mirrors (v u : World) (h : Over v u) (cs : List ConsumerCall) :
    (tellConsumers P k v cs).Mirrors t (tellConsumers mute k' u cs) Over :=
  mirrors_foldlM _ (fun c a b hab => callConsumerN_mirrors hR a b hab c) h

variable {n : Nat}

theorem findTokenN_mirrors (v u : World) (h : Over v u) (o : Nat) (cs : List Byte) (d : TextParser.Dest) :
    (findTokenN P k v n o cs d).Mirrors t (findTokenN mute k' u n o cs d) (fun x y => Over x.1 y.1 ∧ x.2 = y.2) := by
  unfold findTokenN
  rw [h.text]
  refine mirrors_bind (mirrors_lift _) ?_
  rintro x _ rfl
  exact mirrors_bind (tellEvents_mirrors hR _ _ (h.setText n _) _) (fun v u h => mirrors_pure ⟨h, rfl⟩)

theorem processStepN_mirrors (v u : World) (h : Over v u) (o : Nat) :
    (processStepN P k v n o).Mirrors t (processStepN mute k' u n o) (fun x y => Over x.1 y.1 ∧ x.2 = y.2) := by
  have simple : Run.Mirrors (do
      let (t, evs, consumed, stop) ← Run.lift ((u.text n).processStep o)
      let w ← tellEvents P k (v.setText n t) evs
      pure (w, consumed, stop)) t (do
      let (t, evs, consumed, stop) ← Run.lift ((u.text n).processStep o)
      let w ← tellEvents mute k' (u.setText n t) evs
      pure (w, consumed, stop)) (fun x y => Over x.1 y.1 ∧ x.2 = y.2) := by
    refine mirrors_bind (mirrors_lift _) ?_
    rintro x _ rfl
    exact mirrors_bind (tellEvents_mirrors hR _ _ (h.setText n _) _) (fun v u h => mirrors_pure ⟨h, rfl⟩)
  unfold processStepN
  rw [h.text]
  cases (u.text n).state with
  | LOOKING_FOR_KEY_OR_SECTION_START => exact simple
  | PARSING_SECTION => exact simple
  | LOOKING_FOR_VALUE_START => exact simple
  | ERROR => exact simple
  | PARSING_KEY =>
    dsimp only
    refine mirrors_bind (findTokenN_mirrors hR v u h _ _ _) ?_
    rintro ⟨v1, r⟩ ⟨u1, _⟩ ⟨h1, rfl⟩
    dsimp only at h1 ⊢
    split
    · split
      · rw [h1.text]
        exact mirrors_pure ⟨h1.setText n _, rfl⟩
      · split
        · rw [h1.text]
          refine mirrors_bind (mirrors_lift _) ?_
          rintro value _ rfl
          rw [(h1.setText n _).text]
          refine mirrors_bind (tellEvents_mirrors hR _ _ (h1.setText n _) _) (fun v2 u2 h2 => ?_)
          rw [h2.text]
          refine mirrors_bind (mirrors_lift _) ?_
          rintro key _ rfl
          exact mirrors_pure ⟨h2.setText n _, rfl⟩
        · exact mirrors_pure ⟨h1, rfl⟩
    · exact mirrors_pure ⟨h1, rfl⟩
  | PARSING_VALUE =>
    dsimp only
    refine mirrors_bind (findTokenN_mirrors hR v u h _ _ _) ?_
    rintro ⟨v1, r⟩ ⟨u1, _⟩ ⟨h1, rfl⟩
    dsimp only at h1 ⊢
    split
    · rw [h1.text]
      refine mirrors_bind (tellEvents_mirrors hR _ _ h1 _) (fun v2 u2 h2 => ?_)
      rw [h2.text]
      refine mirrors_bind (mirrors_lift _) ?_
      rintro key _ rfl
      rw [(h2.setText n _).text]
      refine mirrors_bind (mirrors_lift _) ?_
      rintro value _ rfl
      exact mirrors_pure ⟨(h2.setText n _).setText n _, rfl⟩
    · exact mirrors_pure ⟨h1, rfl⟩

theorem processLoopN_mirrors (fuel : Nat) (v u : World) (h : Over v u) (o : Nat) :
    (processLoopN P k fuel v n o).Mirrors t (processLoopN mute k' fuel u n o) (fun x y => Over x.1 y.1 ∧ x.2 = y.2) := by
  induction fuel generalizing v u o with
  | zero => exact mirrors_fail (fun a ha => by cases ha) (fun a ha => by cases ha)
  | succ fuel ih =>
    rw [processLoopN, processLoopN, h.text]
    split
    · refine mirrors_bind (processStepN_mirrors hR v u h o) ?_
      rintro ⟨v1, j, stop⟩ ⟨u1, _, _⟩ ⟨h1, heq⟩
      cases heq
      dsimp only at h1 ⊢
      split
      · exact mirrors_pure ⟨h1, rfl⟩
      · exact ih v1 u1 h1 _
    · exact mirrors_pure ⟨h, rfl⟩

theorem reportParseErrorN_mirrors (v u : World) (h : Over v u) : (reportParseErrorN P k v n).Mirrors t (reportParseErrorN mute k' u n) Over := by
  unfold reportParseErrorN
  rw [h.text]
  refine mirrors_bind (mirrors_lift _) ?_
  rintro x _ rfl
  exact tellEvents_mirrors hR _ _ (h.setText n _) _

theorem addLoopN_mirrors (fuel : Nat) (v u : World) (h : Over v u) (input : BufferManager) (o : Nat) :
    (addLoopN P k fuel v n input o).Mirrors t (addLoopN mute k' fuel u n input o) Over := by
  induction fuel generalizing v u o with
  | zero => exact mirrors_fail (fun a ha => by cases ha) (fun a ha => by cases ha)
  | succ fuel ih =>
    rw [addLoopN, addLoopN, h.text]
    split
    · split
      · exact reportParseErrorN_mirrors hR v u h
      · refine mirrors_bind (mirrors_lift _) ?_
        rintro x _ rfl
        refine mirrors_bind (processLoopN_mirrors hR _ _ _ (h.setText n _) _) ?_
        rintro ⟨v1, m⟩ ⟨u1, _⟩ ⟨h1, rfl⟩
        dsimp only at h1 ⊢
        rw [h1.text]
        refine mirrors_bind (mirrors_lift _) ?_
        rintro b _ rfl
        exact ih _ _ (h1.setText n _) _
    · exact mirrors_pure h

theorem addTextN_mirrors (v u : World) (h : Over v u) (input : BufferManager) :
    (addTextN P k v n input).Mirrors t (addTextN mute k' u n input) Over := by
  unfold addTextN
  rw [h.text]
  split
  · exact reportParseErrorN_mirrors hR v u h
  · exact addLoopN_mirrors hR _ v u h _ _

theorem parserResetN_mirrors (v u : World) (h : Over v u) : (parserResetN P k v n).Mirrors t (parserResetN mute k' u n) Over := by
  unfold parserResetN
  rw [h.parsers]
  refine mirrors_bind (tellConsumers_mirrors hR v u h _) (fun v1 u1 h1 => ?_)
  rw [h1.parsers]
  refine mirrors_bind (mirrors_lift _) ?_
  rintro p _ rfl
  exact mirrors_pure (h1.setParser n _)

theorem parserDataN_mirrors (v u : World) (h : Over v u) (d : Data) : (parserDataN P k v n d).Mirrors t (parserDataN mute k' u n d) Over := by
  unfold parserDataN
  rw [h.parsers]
  refine mirrors_bind (mirrors_lift _) ?_
  rintro crc _ rfl
  refine mirrors_bind (addTextN_mirrors hR _ _ (h.setParser n _) _) (fun v1 u1 h1 => ?_)
  rw [h1.parsers]
  split
  · refine mirrors_bind (mirrors_lift _) ?_
    rintro crc _ rfl
    split
    · dsimp only
      rw [(h1.setParser n _).parsers]
      exact tellConsumers_mirrors hR _ _ (h1.setParser n _) _
    · dsimp only
      rw [(h1.setParser n _).parsers]
      exact tellConsumers_mirrors hR _ _ (h1.setParser n _) _
  · exact mirrors_pure h1

theorem parserAddN_mirrors (v u : World) (h : Over v u) (d : Data) : (parserAddN P k v n d).Mirrors t (parserAddN mute k' u n d) Over := by
  unfold parserAddN
  rw [h.parsers]
  split
  · exact parserResetN_mirrors hR v u h
  · split
    · exact parserDataN_mirrors hR v u h d
    · refine mirrors_bind (mirrors_lift _) ?_
      rintro ⟨p, calls⟩ _ rfl
      exact tellConsumers_mirrors hR _ _ (h.setParser n _) _

theorem tell_mirrors (v u : World) (h : Over v u) (e : LogEntry) : (tell P k v e).Mirrors t (tell mute k' u e) Over := by
  constructor
  · intro v' hv
    exact ⟨u.logAll [e], returns_pure.mpr rfl, hR.over _ _ _ (h.logAll [e]) _ hv⟩
  · intro ht u' hu
    obtain ⟨v', hv⟩ := hR.ret ht (v.logAll [e]) e
    rw [← returns_pure.mp (hu : (pure (u.logAll [e]) : Run World).Returns u')]
    exact ⟨v', hv, hR.over _ _ _ (h.logAll [e]) _ hv⟩

theorem runCallN_mirrors (v u : World) (h : Over v u) (c : Call) : (runCallN P k v c).Mirrors t (runCallN mute k' u c) Over := by
  cases c with
  | cfgStart n => show (pure _ : Run World).Mirrors t (pure _) _; rw [h.parsers]; exact mirrors_pure (h.setParser n _)
  | cfgAdd n d => exact parserAddN_mirrors hR v u h d
  | cfgReset n => exact parserResetN_mirrors hR v u h
  | tx cb f =>
    unfold runCallN
    dsimp only
    rw [h.station]
    split
    · exact mirrors_fail (fun a ha => by cases ha) (fun a ha => by cases ha)
    · exact tell_mirrors hR v u h _
  | _ => exact tell_mirrors hR v u h _

theorem runCallsN_mirrors (v u : World) (h : Over v u) (r : Res (List Call)) : (runCallsN P k v r).Mirrors t (runCallsN mute k' u r) Over := by
  unfold runCallsN
  refine mirrors_bind (mirrors_lift _) ?_
  rintro cs _ rfl
  exact mirrors_foldlM _ (fun c a b hab => runCallN_mirrors hR a b hab c) h

theorem finishN_mirrors (v u : World) (h : Over v u) :
    (finishN P k v).Mirrors t (finishN mute k' u) (fun v u => Over v u ∧ u.station.callbacks.configData = none) := by
  unfold finishN
  rw [h.station]
  split
  · next hc => exact mirrors_pure ⟨h, hc⟩
  · exact mirrors_bind (parserResetN_mirrors hR v u h) (fun v u h => mirrors_pure ⟨h.register none, rfl⟩)

theorem send8_mirrors (v u : World) (h : Over v u) (id : Identifier) (bytes : List Byte) :
    (send8 P k v id bytes).Mirrors t (send8 mute k' u id bytes) Over := by
  unfold send8
  rw [h.station]
  exact runCallsN_mirrors hR v u h _

theorem requestEngineN_mirrors (v u : World) (h : Over v u) (info : World → ShortInfo) (hinfo : ∀ v u, Over v u → info v = info u) (p : Option Nat) :
    (requestEngineN P k v info p).Mirrors t (requestEngineN mute k' u info p) Over := by
  have packets : ∀ (v u : World), Over v u → Run.Mirrors (do
      let mem ← Run.lift (strncpy ({} : Data).bytes kEngine Data.kDataBufferLength)
      let w ← send8 P k v (Identifier.mk' kRequestConfigData v.station.senderHash) mem
      let engineNameLength ← Run.lift (strlen (info w).name)
      let mem ← Run.lift (strncpy ({} : Data).bytes (info w).name CanDataMaxLength)
      let w ← send8 P k w (Identifier.mk' kRequestConfigData v.station.senderHash) mem
      let mem ← Run.lift (if engineNameLength > CanDataMaxLength then
          strncpy ({} : Data).bytes ((info w).name.drop CanDataMaxLength) CanDataMaxLength
        else .ok ({} : Data).bytes)
      send8 P k w (Identifier.mk' kRequestConfigData v.station.senderHash) mem) t (do
      let mem ← Run.lift (strncpy ({} : Data).bytes kEngine Data.kDataBufferLength)
      let w ← send8 mute k' u (Identifier.mk' kRequestConfigData u.station.senderHash) mem
      let engineNameLength ← Run.lift (strlen (info w).name)
      let mem ← Run.lift (strncpy ({} : Data).bytes (info w).name CanDataMaxLength)
      let w ← send8 mute k' w (Identifier.mk' kRequestConfigData u.station.senderHash) mem
      let mem ← Run.lift (if engineNameLength > CanDataMaxLength then
          strncpy ({} : Data).bytes ((info w).name.drop CanDataMaxLength) CanDataMaxLength
        else .ok ({} : Data).bytes)
      send8 mute k' w (Identifier.mk' kRequestConfigData u.station.senderHash) mem) Over := by
    intro v u h
    rw [h.station]
    refine mirrors_bind (mirrors_lift _) ?_
    rintro mem _ rfl
    refine mirrors_bind (send8_mirrors hR v u h _ _) (fun v u h => ?_)
    rw [hinfo v u h]
    refine mirrors_bind (mirrors_lift _) ?_
    rintro len _ rfl
    refine mirrors_bind (mirrors_lift _) ?_
    rintro mem _ rfl
    refine mirrors_bind (send8_mirrors hR v u h _ _) (fun v u h => ?_)
    rw [hinfo v u h]
    refine mirrors_bind (mirrors_lift _) ?_
    rintro mem _ rfl
    exact send8_mirrors hR v u h _ _
  unfold requestEngineN
  rw [hinfo v u h, h.station, h.processing]
  split
  · exact mirrors_pure h
  · split
    · exact mirrors_pure h
    · refine mirrors_bind (finishN_mirrors hR v u h) (fun v u ⟨h, _⟩ => ?_)
      cases p with
      | none => exact packets _ _ (h.register none)
      | some n =>
        have h1 := h.register (some n)
        dsimp only
        rw [h1.parsers]
        exact packets _ _ (h1.setParser n _)

/-- A call whose callbacks only add to the log does what it does with silent callbacks. -/
theorem stepN_mirrors (v u : World) (h : Over v u) (op : Op) : (stepN P k v op).Mirrors t (stepN mute k' u op) Over := by
  have quiet : ∀ (f : Station → Bool → Res (List Call)),
      (runCallsN P k v (f v.station v.processing)).Mirrors t (runCallsN mute k' u (f u.station u.processing)) Over := by
    intro f
    rw [h.station, h.processing]
    exact runCallsN_mirrors hR v u h _
  have own : (∀ (T : List LogEntry → List LogEntry → Prop) (x : World) l, T x.log l → ∀ v', (x.over l).step op = .ok v' →
      ∃ u', x.step op = .ok u' ∧ ∃ l', v' = u'.over l' ∧ T u'.log l') → (Run.lift (v.step op)).Mirrors t (Run.lift (u.step op)) Over := by
    intro ho
    obtain ⟨l, rfl, hl⟩ := h
    refine ⟨fun v' hv => ?_, fun _ u' hu => ?_⟩
    · obtain ⟨u', h1, h2⟩ := ho Thin u l hl v' (returns_lift.mp hv)
      exact ⟨u', returns_lift.mpr h1, h2⟩
    · obtain ⟨v', h1, -⟩ := ho (fun _ _ => True) (u.over l) u.log trivial u' (returns_lift.mp hu)
      obtain ⟨u'', h2, h3⟩ := ho Thin u l hl v' h1
      rw [returns_lift.mp hu] at h2
      injection h2 with h2
      subst h2
      exact ⟨v', returns_lift.mpr h1, h3⟩
  have fin : (finishN P k v).Mirrors t (finishN mute k' u) Over :=
    mirrors_mono (finishN_mirrors hR v u h) (fun _ _ h => h.1)
  cases op with
  | begin_ uuid cbs =>
    refine mirrors_bind (finishN_mirrors hR v u h) (fun v1 u1 ⟨h1, hc⟩ => ?_)
    have hb : ∀ x : World, x.station.callbacks.configData = none → x.step (.begin_ uuid cbs) =
        .ok { x with station := { callbacks := cbs, senderHash := computeSenderHash (uuid.zeroExtend 32) } } := by
      intro x hc
      simp only [step, stationUpdate, Station.begin_, Station.AbortCurrentConfigRequest, Station.FinishCurrentConfigRequest, hc, bind, Except.bind]
      rfl
    rw [hb u1 hc, hb v1 (by rw [h1.station]; exact hc)]
    exact mirrors_pure (h1.setStation _)
  | requestEngineList off p =>
    refine mirrors_bind (finishN_mirrors hR v u h) (fun v1 u1 ⟨h1, _⟩ => ?_)
    rw [h1.station]
    refine mirrors_bind (mirrors_lift _) ?_
    rintro ⟨s, cs⟩ _ rfl
    exact runCallsN_mirrors hR _ _ (h1.setStation s) _
  | requestEngine e p => exact requestEngineN_mirrors hR v u h (fun w => (w.engines e).info) (fun v u h => by rw [h.engines]) p
  | requestShortInfo i p => exact requestEngineN_mirrors hR v u h (fun _ => i) (fun _ _ _ => rfl) p
  | finish => exact fin
  | abort => exact fin
  | notifyReceived => exact fin
  | handle f => exact quiet (fun s b => s.HandlePacket b f)
  | parserAdd n d => exact parserAddN_mirrors hR v u h d
  | parserReset n => exact parserResetN_mirrors hR v u h
  | requestDirection e => exact quiet (fun s _ => s.RequestEngineDirection e)
  | sendDirection e d => exact quiet (fun s _ => s.SendEngineDirection e d)
  | requestVelocity e => exact quiet (fun s _ => s.RequestEngineVelocity e)
  | sendVelocity e d => exact quiet (fun s _ => s.SendEngineVelocity e d)
  | requestFunction e d => exact quiet (fun s _ => s.RequestEngineFunction e d)
  | requestAllFunctions e => exact quiet (fun s _ => s.RequestEngineAllFunctions e)
  | sendFunction e d b => exact quiet (fun s _ => s.SendEngineFunction e d b)
  | sendEmergencyStop e => exact quiet (fun s _ => s.SendEmergencyStop e)
  | sendStop => exact quiet (fun s _ => s.SendSystemStop)
  | sendGo => exact quiet (fun s _ => s.SendSystemGo)
  | sendAccessory a p d pw => exact quiet (fun s _ => s.SendAccessoryPacket a p d pw)
  | sendPacket f => exact quiet (fun s _ => s.SendPacket f)
  | parserStart n c => show (pure _ : Run World).Mirrors t (pure _) _; rw [h.parsers]; exact mirrors_pure (h.setParser n _)
  | parserStartStream n => show (pure _ : Run World).Mirrors t (pure _) _; rw [h.parsers]; exact mirrors_pure (h.setParser n _)
  | setEngine c e =>
    refine own (fun T x l hl v' hv => ?_)
    simp only [step] at hv ⊢
    rw [show (x.over l).consumers = x.consumers from rfl] at hv
    split at hv <;> injection hv with hv <;> subst hv <;> exact ⟨_, rfl, l, rfl, hl⟩
  | setEndCallback c e =>
    refine own (fun T x l hl v' hv => ?_)
    simp only [step] at hv ⊢
    rw [show (x.over l).consumers = x.consumers from rfl] at hv
    split at hv <;> injection hv with hv <;> subst hv <;> exact ⟨_, rfl, l, rfl, hl⟩
  | setStreamOffset c e =>
    refine own (fun T x l hl v' hv => ?_)
    simp only [step] at hv ⊢
    rw [show (x.over l).consumers = x.consumers from rfl] at hv
    split at hv <;> injection hv with hv <;> subst hv <;> exact ⟨_, rfl, l, rfl, hl⟩
  | clearTable c =>
    refine own (fun T x l hl v' hv => ?_)
    simp only [step] at hv ⊢
    rw [show (x.over l).consumers = x.consumers from rfl] at hv
    split at hv <;> injection hv with hv <;> subst hv <;> exact ⟨_, rfl, l, rfl, hl⟩
  | resetList c =>
    refine own (fun T x l hl v' hv => ?_)
    simp only [step] at hv ⊢
    rw [show (x.over l).consumers = x.consumers from rfl] at hv
    split at hv <;> injection hv with hv <;> subst hv <;> exact ⟨_, rfl, l, rfl, hl⟩
  | setName e nm =>
    refine own (fun T x l hl v' hv => ?_)
    obtain ⟨y, h1, hv⟩ := bind_ok hv
    injection hv with hv
    subst hv
    refine ⟨{ x with engines := x.engines.set e y }, ?_, l, rfl, hl⟩
    have h1 : (x.engines e).setName nm = .ok y := h1
    simp only [step, h1, bind, Except.bind]
  | assignEngine e y =>
    refine own (fun T x l hl v' hv => ?_)
    injection hv with hv
    subst hv
    exact ⟨_, rfl, l, rfl, hl⟩

end

end World

end RR32
