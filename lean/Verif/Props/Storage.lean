import Verif.Spec.Storage
import Verif.Props.LifetimeOver

/-! # C111: storage that is used again -/

set_option autoImplicit false

namespace RR32

namespace World

theorem create_station {w w' : World} {b : Newborn} (h : w.create b = .ok w') : w'.station = w.station ∧ w'.log = w.log := by
  cases b with
  | parser n a b c d =>
    obtain ⟨t, -, h⟩ := bind_ok h
    cases h
    exact ⟨rfl, rfl⟩
  | _ => cases h; exact ⟨rfl, rfl⟩

theorem text_construct_consumer {a b c d : List Byte} {t : TextParser} (h : TextParser.construct a b c d = .ok t) : t.consumer = none := by
  unfold TextParser.construct TextParser.reset at h
  obtain ⟨_, -, h⟩ := bind_ok h
  obtain ⟨_, -, h⟩ := bind_ok h
  obtain ⟨_, -, h⟩ := bind_ok h
  obtain ⟨_, -, h⟩ := bind_ok h
  cases h
  rfl

/-- C111: a new object points to nothing, and nothing begins to point to it. -/
theorem C111_new {w w' : World} {b : Newborn} (h : w.create b = .ok w') (o o' : Obj) (hp : w'.Points o o') :
    o ≠ b.obj ∧ w.Points o o' := by
  have hkeep : ∀ {n : Nat} {c : Consumer} {w' : World}, w' = w.setConsumer n c → (∀ o', ¬w'.Points (.consumer n) o') →
      w'.Points o o' → o ≠ .consumer n ∧ w.Points o o' := by
    intro n c w' he hno hp
    have hne : o ≠ .consumer n := by intro ho; rw [ho] at hp; exact hno o' hp
    refine ⟨hne, ?_⟩
    subst he
    cases hp with
    | consumer m d hd => exact .consumer m d hd
    | engine m e l hl he =>
      have : m ≠ n := fun h => hne (by rw [h])
      simp only [setConsumer, if_neg this] at hl
      exact .engine m e l hl he
    | locoEnd m e l hl he =>
      have : m ≠ n := fun h => hne (by rw [h])
      simp only [setConsumer, if_neg this] at hl
      exact .locoEnd m e l hl he
    | listEnd m e l hl he =>
      have : m ≠ n := fun h => hne (by rw [h])
      simp only [setConsumer, if_neg this] at hl
      exact .listEnd m e l hl he
  cases b with
  | parser n x1 x2 x3 x4 =>
    obtain ⟨t, ht, h⟩ := bind_ok h
    cases h
    cases hp with
    | consumer m d hd =>
      by_cases hm : m = n
      · subst hm
        simp only [setParser, if_true] at hd
        rcases hd with hd | hd
        · cases hd
        · change t.consumer = some d at hd
          rw [text_construct_consumer ht] at hd
          cases hd
      · simp only [setParser, if_neg hm] at hd
        exact ⟨fun h => hm (by cases h; rfl), .consumer m d hd⟩
    | engine m e l hl he => exact ⟨(by intro h; cases h), .engine m e l hl he⟩
    | locoEnd m e l hl he => exact ⟨(by intro h; cases h), .locoEnd m e l hl he⟩
    | listEnd m e l hl he => exact ⟨(by intro h; cases h), .listEnd m e l hl he⟩
  | loco n =>
    cases h
    refine hkeep rfl ?_ hp
    intro x hx
    cases hx with
    | engine _ e l hl he => simp only [setConsumer, if_true] at hl; cases hl; cases he
    | locoEnd _ e l hl he => simp only [setConsumer, if_true] at hl; cases hl; cases he
    | listEnd _ e l hl he => simp only [setConsumer, if_true] at hl; cases hl
  | list n =>
    cases h
    refine hkeep rfl ?_ hp
    intro x hx
    cases hx with
    | engine _ e l hl he => simp only [setConsumer, if_true] at hl; cases hl
    | locoEnd _ e l hl he => simp only [setConsumer, if_true] at hl; cases hl
    | listEnd _ e l hl he => simp only [setConsumer, if_true] at hl; cases hl; cases he
  | app n =>
    cases h
    refine hkeep rfl ?_ hp
    intro x hx
    cases hx with
    | engine _ e l hl he => simp only [setConsumer, if_true] at hl; cases hl
    | locoEnd _ e l hl he => simp only [setConsumer, if_true] at hl; cases hl
    | listEnd _ e l hl he => simp only [setConsumer, if_true] at hl; cases hl
  | engine n g =>
    cases h
    cases hp with
    | consumer m d hd => exact ⟨(by intro h; cases h), .consumer m d hd⟩
    | engine m e l hl he => exact ⟨(by intro h; cases h), .engine m e l hl he⟩
    | locoEnd m e l hl he => exact ⟨(by intro h; cases h), .locoEnd m e l hl he⟩
    | listEnd m e l hl he => exact ⟨(by intro h; cases h), .listEnd m e l hl he⟩
  | _ =>
    cases h
    refine ⟨?_, hp⟩
    intro ho
    subst ho
    cases hp

theorem adding_iff (live : Obj → Bool) (o x : Obj) : adding live o x = true ↔ x = o ∨ live x = true := by simp [adding]

theorem without_iff (live : Obj → Bool) (o x : Obj) : without live o x = true ↔ x ≠ o ∧ live x = true := by simp [without]

theorem create_no_dangling {live : Obj → Bool} {w w' : World} {b : Newborn} (hn : NoDangling live w) (h : w.create b = .ok w') :
    NoDangling live w' ∧ NoDangling (adding live b.obj) w' := by
  have hs := (create_station h).1
  refine ⟨⟨?_, ?_⟩, ⟨?_, ?_⟩⟩
  · intro o ho; rw [hs] at ho; exact hn.station o ho
  · intro o o' ho hp; exact hn.objects o o' ho (C111_new h o o' hp).2
  · intro o ho; rw [hs] at ho; exact (adding_iff ..).mpr (.inr (hn.station o ho))
  · intro o o' ho hp
    obtain ⟨hne, hp⟩ := C111_new h o o' hp
    exact (adding_iff ..).mpr (.inr (hn.objects o o' (((adding_iff ..).mp ho).resolve_left hne) hp))

/-- C111: a careful program that uses storage again never uses an object that no longer exists, and does what it would do if nothing were
destroyed and each new object were assigned to the old one in its place. -/
theorem C111_careful (ds : List Deed) : ∀ (live : Obj → Bool) (w : World), NoDangling live w → CarefulS live w ds →
    (∀ o, w.runS live ds ≠ .error (.dangling o)) ∧ (w.runS live ds).map (·.2) = Out.lift (w.runForever ds) := by
  induction ds with
  | nil => intro live w _ _; exact ⟨(by intro o h; cases h), rfl⟩
  | cons a ds ih =>
    intro live w hn hc
    cases hc with
    | call _ _ op _ hm h =>
      unfold runS runForever
      rw [step_agree (C := fun o => live o = true) (fun _ h => h) hn.objects hn.station hm]
      cases hs : w.step op with
      | error e => exact ⟨(by intro o h; cases h), rfl⟩
      | ok w' => exact ih live w' (C89_step live w w' op hn hm hs).2 (h w' hs)
    | destroy _ _ o _ ho hs hp h =>
      have := ih _ w (no_dangling_without hn hs hp) h
      unfold runS runForever
      rw [check_ok (by intro x hx; rw [List.mem_singleton] at hx; rw [hx]; exact ho)]
      exact this
    | create _ _ b _ hb h =>
      unfold runS runForever
      cases hw : w.create b with
      | error e => exact ⟨(by intro o h; cases h), rfl⟩
      | ok w' => exact ih _ w' (create_no_dangling hn hw).2 (h w' hw)

theorem For.unique {c : Call} {o o' : Obj} (h : For c o) (h' : For c o') : o = o' := by
  cases h <;> cases h' <;> rfl

theorem LeftAlone.refl (o : Obj) (w : World) : LeftAlone o w w :=
  ⟨⟨[], by simp, by intro x hx; cases hx⟩, fun _ _ => rfl, fun _ _ => rfl, fun _ _ => rfl⟩

theorem LeftAlone.trans {o : Obj} {a b c : World} (h : LeftAlone o a b) (k : LeftAlone o b c) : LeftAlone o a c := by
  obtain ⟨x, hx, hx'⟩ := h.log
  obtain ⟨y, hy, hy'⟩ := k.log
  refine ⟨⟨x ++ y, by rw [hy, hx, List.append_assoc], ?_⟩, ?_, ?_, ?_⟩
  · intro z hz
    rcases List.mem_append.mp hz with hz | hz
    · exact hx' z hz
    · exact hy' z hz
  · intro n hn; rw [k.parser n hn, h.parser n hn]
  · intro n hn; rw [k.consumer n hn, h.consumer n hn]
  · intro n hn; rw [k.engine n hn, h.engine n hn]

theorem left_alone_of_living {live : Obj → Bool} {o : Obj} {w w' : World} (h : OnlyLiving live w w') (ho : live o = false) :
    LeftAlone o w w' := by
  obtain ⟨new, h1, h2⟩ := h.log
  refine ⟨⟨new, h1, ?_⟩, ?_, ?_, ?_⟩
  · intro x hx ht
    have hl := h2 x hx
    cases ht with
    | call c _ hf =>
      obtain ⟨o', hf', hl⟩ := hl
      rw [For.unique hf' hf, ho] at hl
      cases hl
    | consumer c =>
      change live _ = true at hl
      rw [ho] at hl
      cases hl
    | endCallback cb c b s =>
      have := hl.1
      rw [ho] at this
      cases this
  · intro n hn
    by_cases he : w'.parsers n = w.parsers n
    · exact he
    · have := h.parsers n he; rw [← hn, ho] at this; cases this
  · intro n hn
    by_cases he : w'.consumers n = w.consumers n
    · exact he
    · have := h.consumers n he; rw [← hn, ho] at this; cases this
  · intro n hn
    by_cases he : w'.engines n = w.engines n
    · exact he
    · have := h.engines n he; rw [← hn, ho] at this; cases this

/-- C111: creating an object tells and changes no other one. -/
theorem C111_others {w w' : World} {b : Newborn} {o : Obj} (h : w.create b = .ok w') (ho : b.obj ≠ o) : LeftAlone o w w' := by
  refine ⟨⟨[], by simp [(create_station h).2], by intro x hx; cases hx⟩, ?_, ?_, ?_⟩
  · intro n hn
    subst hn
    cases b with
    | parser m x1 x2 x3 x4 =>
      obtain ⟨t, ht, h⟩ := bind_ok h
      cases h
      have : n ≠ m := fun hh => ho (by rw [hh]; rfl)
      simp [setParser, this]
    | _ => cases h; rfl
  · intro n hn
    subst hn
    cases b with
    | parser m x1 x2 x3 x4 =>
      obtain ⟨t, ht, h⟩ := bind_ok h
      cases h
      rfl
    | loco m | list m | app m =>
      cases h
      have : n ≠ m := fun hh => ho (by rw [hh]; rfl)
      simp [setConsumer, this]
    | _ => cases h; rfl
  · intro n hn
    subst hn
    cases b with
    | parser m x1 x2 x3 x4 =>
      obtain ⟨t, ht, h⟩ := bind_ok h
      cases h
      rfl
    | engine m g =>
      cases h
      have : n ≠ m := fun hh => ho (by rw [hh]; rfl)
      simp [Engines.set, this]
    | _ => cases h; rfl

theorem left_alone_run (o : Obj) (ds : List Deed) : ∀ (live l : Obj → Bool) (w : World), live = adding l o → l o = false → NoDangling l w →
    CarefulS live w ds → (∀ d ∈ ds, ¬Names d o) → ∀ live' w', w.runS live ds = .ok (live', w') →
    LeftAlone o w w' ∧ ¬w'.station.Has o ∧ ∀ x, x ≠ o → live' x = true → ¬w'.Points x o := by
  induction ds with
  | nil =>
    intro live l w hl ho hn _ _ live' w' h
    cases h
    refine ⟨.refl o w, ?_, ?_⟩
    · intro hh; rw [hn.station o hh] at ho; cases ho
    · intro x hx hlx hp
      rw [hl] at hlx
      rw [hn.objects x o (((adding_iff ..).mp hlx).resolve_left hx) hp] at ho
      cases ho
  | cons a ds ih =>
    intro live l w hl ho hn hc hd live' w' h
    have hds : ∀ d ∈ ds, ¬Names d o := fun d hd' => hd d (List.mem_cons_of_mem _ hd')
    have ha := hd a (List.mem_cons_self ..)
    cases hc with
    | call _ _ op _ hm hk =>
      obtain ⟨w1, h1, h⟩ := out_bind h
      have hs := (C89_living live w w1 op h1).1
      have hm' : ∀ x, Mentions op x → l x = true := by
        intro x hx
        have := hm x hx
        rw [hl] at this
        exact ((adding_iff ..).mp this).resolve_left (fun he => ha (.call op o (he ▸ hx)))
      obtain ⟨k1, k2⟩ := C89_step l w w1 op hn hm' hs
      have hla := left_alone_of_living (C89_living l w w1 op k1).2 ho
      obtain ⟨r1, r2⟩ := ih live l w1 hl ho k2 (hk w1 hs) hds live' w' h
      exact ⟨hla.trans r1, r2⟩
    | destroy _ _ x _ hx hs hp hk =>
      obtain ⟨_, -, h⟩ := out_bind h
      have hne : x ≠ o := fun he => ha (he ▸ .destroy x)
      refine ih (without live x) (without l x) w ?_ ?_ ?_ hk hds live' w' h
      · subst hl
        funext y
        by_cases hy : y = o
        · subst hy; simp [without, adding, Ne.symm hne]
        · simp only [without, adding]
          rw [beq_false_of_ne hy]
          rfl
      · simp [without, ho]
      · refine no_dangling_without hn hs ?_
        intro y hy
        exact hp y (by rw [hl]; exact (adding_iff ..).mpr (.inr hy))
    | create _ _ b _ hb hk =>
      obtain ⟨w1, h1, h⟩ := out_bind h
      have h1 := lift_ok h1
      have hne : b.obj ≠ o := fun he => ha (he ▸ .create b)
      obtain ⟨r1, r2⟩ := ih (adding live b.obj) (adding l b.obj) w1 (by
          subst hl
          funext y
          simp only [adding]
          cases y == b.obj <;> cases y == o <;> rfl)
        (by simp [adding, ho, Ne.symm hne]) (create_no_dangling hn h1).2 (hk w1 h1) hds live' w' h
      exact ⟨(C111_others h1 hne).trans r1, r2⟩

/-- C111: in a careful program an object that is made where a destroyed one was is told nothing, does not change, and nothing points to it,
until the application mentions it. -/
theorem C111_left_alone (live live' : Obj → Bool) (w w1 w' : World) (b : Newborn) (ds : List Deed) (hn : NoDangling live w)
    (hb : live b.obj = false) (h1 : w.create b = .ok w1) (hc : CarefulS (adding live b.obj) w1 ds) (hd : ∀ d ∈ ds, ¬Names d b.obj)
    (h : w1.runS (adding live b.obj) ds = .ok (live', w')) :
    LeftAlone b.obj w1 w' ∧ ¬w'.station.Has b.obj ∧ ∀ x, x ≠ b.obj → live' x = true → ¬w'.Points x b.obj :=
  left_alone_run b.obj ds _ live w1 rfl hb (create_no_dangling hn h1).1 hc hd live' w' h

/-- C111: without care nothing is noticed. A consumer is destroyed while its stream is being waited for or received, and another one is made
in its place: when the stream ends, the new one is told that its stream is aborted, though it never had one. No object is used that does
not exist. -/
theorem C111_mistaken (live : Obj → Bool) (w : World) (n c : Nat) (q : StreamParser) (hp : (w.parsers n).isProcessing = true)
    (hc : (w.parsers n).consumer = some c) (hn : live (.parser n) = true) (hl : live (.consumer c) = true)
    (hq : (w.parsers n).resetClear = .ok q) :
    ∃ live' w', w.runS live [.destroy (.consumer c), .create (.app c), .call (.parserReset n)] = .ok (live', w') ∧
      w'.log = w.log ++ [.consumer ⟨c, .aborted⟩] ∧ ¬CarefulS live w [.destroy (.consumer c), .create (.app c), .call (.parserReset n)] := by
  have hs : (w.parsers n).state = .WAITING_FIRST_PACKET ∨ (w.parsers n).state = .WAITING_DATA_PACKET := by
    unfold StreamParser.isProcessing at hp
    cases hst : (w.parsers n).state with
    | IDLE => rw [hst] at hp; cases hp
    | WAITING_FIRST_PACKET => exact Or.inl rfl
    | WAITING_DATA_PACKET => exact Or.inr rfl
    | STREAM_DONE => rw [hst] at hp; cases hp
  have hnot : (w.parsers n).resetNotify = [⟨c, .aborted⟩] := by
    unfold StreamParser.resetNotify StreamParser.notify
    rw [if_pos hs, hc]
  let l2 := adding (without live (.consumer c)) (.consumer c)
  let w1 := w.setConsumer c .app
  have hu : ∀ o, live o = true → l2 o = true := by
    intro o ho
    refine (adding_iff ..).mpr ?_
    by_cases he : o = .consumer c
    · exact .inl he
    · exact .inr ((without_iff ..).mpr ⟨he, ho⟩)
  have h1 : w1.stepL l2 (.parserReset n) = .ok ((w1.setParser n q).logAll [.consumer ⟨c, .aborted⟩]) := by
    have hk : ∀ os, (∀ o ∈ os, live o = true) → Out.check l2 os = .ok () := fun os h => check_ok fun o ho => hu o (h o ho)
    unfold stepL
    rw [hk (w1.opUses (.parserReset n)) (by intro o ho; rw [List.mem_singleton.mp ho]; exact hn)]
    change w1.parserResetL l2 n = _
    unfold parserResetL
    rw [hk [.parser n] (by intro o ho; rw [List.mem_singleton.mp ho]; exact hn)]
    change (Out.lift (w.parsers n).reset >>= _) = _
    unfold StreamParser.reset
    rw [hq, hnot]
    change callConsumersL l2 (w1.setParser n q) [⟨c, .aborted⟩] = _
    have hcons : (w1.setParser n q).consumers c = .app := by
      change (if c = c then Consumer.app else _) = _
      rw [if_pos rfl]
    have h2 : callConsumerL l2 (w1.setParser n q) ⟨c, .aborted⟩ = .ok ((w1.setParser n q).logAll [.consumer ⟨c, .aborted⟩]) := by
      unfold callConsumerL consumerUses
      dsimp only
      rw [hcons]
      dsimp only
      rw [hk [.consumer c] (by intro o ho; rw [List.mem_singleton.mp ho]; exact hl)]
      change Out.lift (callConsumer (w1.setParser n q) ⟨c, .aborted⟩) = _
      have h3 : ((w1.setParser n q).logAll [.consumer ⟨c, .aborted⟩]).consumers c = .app := hcons
      unfold callConsumer
      dsimp only
      rw [h3]
      rfl
    unfold callConsumersL
    rw [List.foldlM_cons, h2]
    rfl
  refine ⟨l2, (w1.setParser n q).logAll [.consumer ⟨c, .aborted⟩], ?_, rfl, ?_⟩
  · unfold runS
    rw [check_ok (by intro x hx; rw [List.mem_singleton] at hx; rw [hx]; exact hl)]
    change (w1.stepL l2 (.parserReset n) >>= fun w => runS l2 w []) = _
    rw [h1]
    rfl
  · intro hcare
    cases hcare with
    | destroy _ _ _ _ _ _ hp' _ => exact hp' (.parser n) hn (.consumer n c (Or.inl hc))

/-- A parser and a consumer exist. -/
def justTwo : Obj → Bool := fun o => o == .parser 0 || o == .consumer 0

/-- A consumer gives way to an engine list, which gets its place and its parser. -/
def successor : List Deed :=
  [.call (.parserStart 0 (some 0)), .call (.parserStart 0 none), .destroy (.consumer 0), .create (.list 0), .call (.parserStartStream 0),
   .call (.parserStart 0 (some 0)), .call (.setEndCallback 0 none), .call (.setStreamOffset 0 2#8)]

example (pf : Platform) (engines : Engines) :
    let w := World.new pf (fun _ => .app) engines
    NoDangling justTwo w ∧ CarefulS justTwo w successor ∧ ∃ l v, w.runS justTwo successor = .ok (l, v) ∧ v.consumers 0 ≠ w.consumers 0 := by
  intro w
  refine ⟨?_, ?_, _, _, rfl, ?_⟩
  · refine C89_start _ _ _ _ ?_
    intro c o _ hp
    cases hp with
    | engine _ _ _ h => cases h
    | locoEnd _ _ _ h => cases h
    | listEnd _ _ _ h => cases h
  · have hm : ∀ (live : Obj → Bool) (op : Op), live (.parser 0) = true → live (.consumer 0) = true →
        op ∈ [.parserStart 0 (some 0), .parserStart 0 none, .parserStartStream 0, .setEndCallback 0 none, .setStreamOffset 0 2#8] →
        ∀ o, Mentions op o → live o = true := by
      intro live op h1 h2 hop o ho
      simp only [List.mem_cons, List.not_mem_nil, or_false] at hop
      rcases hop with rfl | rfl | rfl | rfl | rfl <;> cases ho <;> assumption
    refine .call _ _ _ _ (hm _ _ rfl rfl (by simp)) fun w1 h1 => ?_
    cases h1
    refine .call _ _ _ _ (hm _ _ rfl rfl (by simp)) fun w2 h2 => ?_
    cases h2
    refine .destroy _ _ _ _ rfl ?_ ?_ ?_
    · intro h; cases h
    · intro o' hl hp
      cases hp with
      | consumer n _ hc =>
        simp [justTwo] at hl
        subst hl
        rcases hc with hc | hc <;> cases hc
    · refine .create _ _ _ _ rfl fun w3 h3 => ?_
      cases h3
      refine .call _ _ _ _ (hm _ _ rfl rfl (by simp)) fun w4 h4 => ?_
      cases h4
      refine .call _ _ _ _ (hm _ _ rfl rfl (by simp)) fun w5 h5 => ?_
      cases h5
      refine .call _ _ _ _ (hm _ _ rfl rfl (by simp)) fun w6 h6 => ?_
      refine .call _ _ _ _ (hm _ _ rfl rfl (by simp)) fun w7 h7 => ?_
      exact .nil _ _
  · intro h; cases h

/-- The engine list is there, and the parser is put to work without a consumer: the list is told nothing. -/
example (pf : Platform) (engines : Engines) :
    let live : Obj → Bool := fun o => o == .parser 0
    let w := World.new pf (fun _ => .app) engines
    ∃ w1, NoDangling live w ∧ live (Newborn.list 0).obj = false ∧ w.create (.list 0) = .ok w1 ∧
      CarefulS (adding live (.consumer 0)) w1 [.call (.parserStartStream 0), .call (.parserStart 0 none)] ∧
      (∀ d ∈ [Deed.call (.parserStartStream 0), .call (.parserStart 0 none)], ¬Names d (.consumer 0)) ∧
      ∃ l v, w1.runS (adding live (.consumer 0)) [.call (.parserStartStream 0), .call (.parserStart 0 none)] = .ok (l, v) := by
  intro live w
  refine ⟨_, ?_, rfl, rfl, ?_, ?_, _, _, rfl⟩
  · refine C89_start _ _ _ _ ?_
    intro c o h hp
    cases hp with
    | engine _ _ _ h => cases h
    | locoEnd _ _ _ h => cases h
    | listEnd _ _ _ h => cases h
  · refine .call _ _ _ _ ?_ fun _ _ => .call _ _ _ _ ?_ fun _ _ => .nil _ _
    · intro o ho; cases ho; rfl
    · intro o ho; cases ho; rfl
  · intro d hd hn
    simp only [List.mem_cons, List.not_mem_nil, or_false] at hd
    rcases hd with rfl | rfl <;> cases hn <;> rename_i h <;> cases h

/-- A parser that waits for the stream of its consumer. -/
example (pf : Platform) (engines : Engines) : ∃ w q,
    (World.new pf (fun _ => .app) engines).run [.parserStart 0 (some 0), .parserStartStream 0] = .ok w ∧
    (w.parsers 0).isProcessing = true ∧ (w.parsers 0).consumer = some 0 ∧ (w.parsers 0).resetClear = .ok q :=
  ⟨_, _, rfl, rfl, rfl, rfl⟩

end World

end RR32
