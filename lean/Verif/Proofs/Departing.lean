import Verif.Spec.Departing
import Verif.Proofs.Lifetime
import Verif.Proofs.NestedStable

/-! # Callbacks that destroy objects: careful programs -/

set_option autoImplicit false

namespace RR32

/-! ## Runs that use no destroyed object -/

/-- The run uses no destroyed object, and its result, if any, is as stated. -/
def Clear {α : Type} (Q : α → Prop) (x : RunD α) : Prop :=
  (∀ o, x.run ≠ some (.error (.dangling o))) ∧ ∀ a, x.run = some (.ok a) → Q a

theorem clear_pure {α : Type} {Q : α → Prop} {a : α} (h : Q a) : Clear Q (pure a : RunD α) :=
  ⟨fun o h' => (by cases h'), fun b h' => (by cases h'; exact h)⟩

theorem clear_none {α : Type} {Q : α → Prop} : Clear Q (ExceptT.mk none : RunD α) :=
  ⟨fun o h' => (by cases h'), fun b h' => (by cases h')⟩

theorem clear_lift {α : Type} {Q : α → Prop} {r : Res α} (h : ∀ a, r = .ok a → Q a) : Clear Q (RunD.lift r) := by
  cases r with
  | error e => exact ⟨fun o h' => (by cases h'), fun b h' => (by cases h')⟩
  | ok a => exact ⟨fun o h' => (by cases h'), fun b h' => (by cases h'; exact h a rfl)⟩

theorem bind_returns {α β : Type} {x : RunD α} {f : α → RunD β} {a : α} (h : x.run = some (.ok a)) : (x >>= f).run = (f a).run := by
  show (Option.bind x.run _) = _
  rw [h]
  rfl

theorem bind_wrong {α β : Type} {x : RunD α} {f : α → RunD β} {e : Misuse} (h : x.run = some (.error e)) : (x >>= f).run = some (.error e) := by
  show (Option.bind x.run _) = _
  rw [h]
  rfl

theorem bind_gone {α β : Type} {x : RunD α} {f : α → RunD β} (h : x.run = none) : (x >>= f).run = none := by
  show (Option.bind x.run _) = _
  rw [h]
  rfl

theorem clear_bind {α β : Type} {R : α → Prop} {Q : β → Prop} {x : RunD α} {f : α → RunD β} (hx : Clear R x) (hf : ∀ a, R a → Clear Q (f a)) :
    Clear Q (x >>= f) := by
  unfold Clear
  cases h : x.run with
  | none => rw [bind_gone h]; exact ⟨fun o h' => (by cases h'), fun b h' => (by cases h')⟩
  | some r =>
    cases r with
    | error e =>
      rw [bind_wrong h]
      refine ⟨fun o h' => ?_, fun b h' => by cases h'⟩
      cases h'
      exact hx.1 o h
    | ok a => rw [bind_returns h]; exact hf a (hx.2 a h)

theorem clear_mono {α : Type} {Q R : α → Prop} {x : RunD α} (h : Clear Q x) (hr : ∀ a, Q a → R a) : Clear R x := ⟨h.1, fun a ha => hr a (h.2 a ha)⟩

theorem clear_foldlM {α β : Type} {Q : β → Prop} (f : β → α → RunD β) (hf : ∀ b a, Q b → Clear Q (f b a)) (l : List α) (b : β) (hb : Q b) :
    Clear Q (l.foldlM f b) := by
  induction l generalizing b with
  | nil => exact clear_pure hb
  | cons x l ih => rw [List.foldlM_cons]; exact clear_bind (hf b x hb) (fun b' hb' => ih b' hb')

theorem clear_use {h : Scene} {os : List Obj} (hl : ∀ o ∈ os, h.live o = true) : Clear (fun _ => True) (h.use os) := by
  unfold Scene.use
  rw [World.check_ok hl]
  exact ⟨fun o h' => (by cases h'), fun _ _ => trivial⟩

/-- A use, and then something else. -/
theorem clear_used {α : Type} {Q : α → Prop} {h : Scene} {os : List Obj} {f : Unit → RunD α} (hl : ∀ o ∈ os, h.live o = true) (hf : Clear Q (f ())) :
    Clear Q (h.use os >>= f) := clear_bind (clear_use hl) (fun _ _ => hf)

/-! ## How many calls on a consumer there are at a time -/

theorem emit_one (p : TextParser) : p.emit.length ≤ 1 := by
  unfold TextParser.emit
  split <;> simp

theorem reportParseError_one {p q : TextParser} {evs : List ParseEvent} (h : p.reportParseError = .ok (q, evs)) : evs.length ≤ 1 := by
  obtain ⟨a, -, h⟩ := bind_ok h
  obtain ⟨b, -, h⟩ := bind_ok h
  obtain ⟨c, -, h⟩ := bind_ok h
  cases h
  exact emit_one _

theorem storeToken_one {p q : TextParser} {offset : Nat} {d : TextParser.Dest} {r r' : TextParser.FindTokenResult} {evs : List ParseEvent}
    (h : p.storeToken offset d r = .ok (q, evs, r')) : evs.length ≤ 1 := by
  unfold TextParser.storeToken at h
  split at h
  · cases h; simp
  · obtain ⟨⟨b, n⟩, -, h⟩ := bind_ok h
    dsimp only at h
    split at h
    · obtain ⟨⟨q', evs'⟩, h1, h⟩ := bind_ok h
      cases h
      exact reportParseError_one h1
    · cases h; simp

theorem findToken_one {p q : TextParser} {offset : Nat} {chars : List Byte} {d : TextParser.Dest} {r : TextParser.FindTokenResult}
    {evs : List ParseEvent} (h : p.findToken offset chars d = .ok (q, evs, r)) : evs.length ≤ 1 := by
  obtain ⟨a, -, h⟩ := bind_ok h
  obtain ⟨⟨q', evs', r'⟩, h1, h⟩ := bind_ok h
  cases h
  exact storeToken_one h1

theorem processStep_one {p q : TextParser} {n m : Nat} {stop : Bool} {evs : List ParseEvent} (h : p.processStep n = .ok (q, evs, m, stop))
    (hk : p.state ≠ .PARSING_KEY) (hv : p.state ≠ .PARSING_VALUE) : evs.length ≤ 1 := by
  unfold TextParser.processStep at h
  split at h
  · obtain ⟨⟨p1, e1, r⟩, h1, h⟩ := bind_ok h
    have hc : e1 = [] := by
      obtain ⟨a, -, h1⟩ := bind_ok h1
      obtain ⟨⟨q', evs', r'⟩, h2, h1⟩ := bind_ok h1
      cases h1
      cases h2
      rfl
    subst hc
    dsimp only at h
    split at h
    · obtain ⟨c, -, h⟩ := bind_ok h
      split at h
      · obtain ⟨s, -, h⟩ := bind_ok h
        cases h; simp
      · obtain ⟨c, -, h⟩ := bind_ok h
        split at h
        · cases h; simp
        · obtain ⟨⟨p2, e2⟩, h2, h⟩ := bind_ok h
          cases h
          simpa using reportParseError_one h2
    · cases h; simp
  · obtain ⟨⟨p1, e1, r⟩, h1, h⟩ := bind_ok h
    have hc := findToken_one h1
    dsimp only at h
    split at h
    · cases h; exact hc
    · cases h; exact hc
  · rename_i h0; exact absurd h0 hk
  · rename_i h0; exact absurd h0 hv
  · cases h; simp
  · cases h; simp

theorem notify_one (p : StreamParser) (a : ConsumerAction) : (p.notify a).length ≤ 1 := by
  unfold StreamParser.notify
  split <;> simp

theorem resetNotify_one (p : StreamParser) : p.resetNotify.length ≤ 1 := by
  unfold StreamParser.resetNotify
  split
  · exact notify_one _ _
  · simp

theorem resetNotify_has (p : StreamParser) : ∀ x ∈ p.resetNotify, p.consumer = some x.consumer := by
  intro x hx
  unfold StreamParser.resetNotify at hx
  split at hx
  · exact notify_has _ _ x hx
  · cases hx

theorem addMessage_one {p q : StreamParser} {d : Data} {cs : List ConsumerCall} (h : p.addMessage d = .ok (q, cs))
    (hd : p.state ≠ .WAITING_DATA_PACKET) : cs.length ≤ 1 := by
  have viaReset : p.reset = .ok (q, cs) → cs.length ≤ 1 := by
    intro h
    obtain ⟨q', -, h⟩ := bind_ok h
    cases h
    exact resetNotify_one p
  unfold StreamParser.addMessage at h
  split at h
  · cases h; simp
  · cases h; simp
  · unfold StreamParser.addFirst at h
    split at h
    · obtain ⟨crc, -, h⟩ := bind_ok h
      dsimp only at h
      split at h
      · cases h; simp
      · cases h; exact notify_one _ _
    · split at h
      · exact viaReset h
      · split at h
        · exact viaReset h
        · cases h; simp
  · rename_i h0; exact absurd h0 hd

theorem resetClear_has {p q : StreamParser} (h : p.resetClear = .ok q) : ∀ c, ¬q.has c :=
  (reset_has (p := p) (q := q) (cs := p.resetNotify) (by unfold StreamParser.reset; rw [h]; rfl)).1

/-! ## The state between two uses of objects -/

namespace Scene

open World

theorem kept_put {busy : List Obj} {h : Scene} {w : World} (hk : Kept busy h) (hs : ∀ o, w.station.Has o → h.live o = true)
    (hf : ∀ o o', h.live o = true → w.Points o o' → h.live o' = true) : Kept busy (h.put w) := ⟨⟨hs, hf⟩, hk.used⟩

theorem kept_setParser {busy : List Obj} {h : Scene} {n : Nat} {p : StreamParser} (hk : Kept busy h) (hp : ∀ c, p.has c → (h.w.parsers n).has c) :
    Kept busy (h.setParser n p) :=
  kept_put hk hk.pointers.station (fun o o' ho hpt => hk.pointers.objects o o' ho (fewer_setParser h.w n p hp o o' hpt))

theorem kept_setText {busy : List Obj} {h : Scene} {n : Nat} {t : TextParser} (hk : Kept busy h) (ht : t.consumer = (h.text n).consumer) :
    Kept busy (h.setText n t) :=
  kept_setParser hk (fun c hc => hc.elim Or.inl (fun hc => Or.inr (by rw [← hc]; exact ht.symm)))

theorem kept_drop {busy : List Obj} {h : Scene} {o : Obj} (hk : Kept busy h) (hs : ¬h.w.station.Has o)
    (hp : ∀ o', h.live o' = true → ¬h.w.Points o' o) (hb : o ∉ busy) : Kept busy (h.drop o) := by
  have key : ∀ x, x ≠ o → h.live x = true → (h.drop o).live x = true := by
    intro x hx hl
    show (x != o && h.live x) = true
    simp [hx, hl]
  have back : ∀ x, (h.drop o).live x = true → h.live x = true := by
    intro x hx
    have hx : (x != o && h.live x) = true := hx
    simp at hx
    exact hx.2
  refine ⟨⟨fun x hx => key x (fun e => hs (e ▸ hx)) (hk.pointers.station x hx), ?_⟩, fun x hx => key x (fun e => hb (e ▸ hx)) (hk.used x hx)⟩
  intro a b ha hab
  exact key b (fun e => hp a (back a ha) (e ▸ hab)) (hk.pointers.objects a b (back a ha) hab)

theorem live_consumer {busy : List Obj} {h : Scene} {n c : Nat} (hk : Kept busy h) (hn : .parser n ∈ busy) (hc : (h.w.parsers n).has c) :
    h.live (.consumer c) = true := hk.pointers.objects _ _ (hk.used _ hn) (.consumer n c hc)

theorem kept_less {busy busy' : List Obj} {h : Scene} (hk : Kept busy' h) (hb : ∀ o ∈ busy, o ∈ busy') : Kept busy h :=
  ⟨hk.pointers, fun o ho => hk.used o (hb o ho)⟩

/-! ## The library, if callbacks are careful -/

/-- Callbacks leave a state of this kind behind, and use nothing that was destroyed. -/
def Polite (P : ProgramD) (k : List Obj → Scene → Act → RunD Scene) : Prop :=
  ∀ busy h e, Kept busy h → Clear (Kept busy) (react P k busy h e)

section
variable {P : ProgramD} {k : List Obj → Scene → Act → RunD Scene} (hR : Polite P k)
include hR

theorem callConsumer_clear {busy : List Obj} {h : Scene} {c : ConsumerCall} (hk : Kept busy h) (hc : h.live (.consumer c.consumer) = true) :
    Clear (Kept busy) (callConsumer P k busy h c) := by
  have hu : ∀ o ∈ h.w.consumerUses c, h.live o = true := by
    intro o ho
    rcases consumerUses_points h.w c o ho with rfl | hp
    · exact hc
    · exact hk.pointers.objects _ _ hc hp
  refine clear_used hu (clear_bind (R := fun v => Kept busy (h.put v)) (clear_lift ?_) ?_)
  · intro v hv
    refine kept_put hk ?_ (fun o o' ho hp => hk.pointers.objects o o' ho (callConsumer_fewer hv o o' hp))
    intro o ho
    rw [(callConsumer_quiet _ _ _ hv).1.1] at ho
    exact hk.pointers.station o ho
  · intro v hv
    exact clear_foldlM _ (fun g e hg => hR busy g e hg) _ _ hv

theorem tellConsumers_clear {busy : List Obj} {h : Scene} {cs : List ConsumerCall} (hk : Kept busy h) (h1 : cs.length ≤ 1)
    (hc : ∀ c ∈ cs, h.live (.consumer c.consumer) = true) : Clear (Kept busy) (tellConsumers P k busy h cs) := by
  match cs, h1, hc with
  | [], _, _ => exact clear_pure hk
  | [c], _, hc =>
    show Clear _ (List.foldlM _ h [c])
    rw [List.foldlM_cons]
    exact clear_bind (callConsumer_clear hR hk (hc c (List.mem_singleton.mpr rfl))) (fun g hg => clear_pure hg)
  | _ :: _ :: _, h1, _ => simp at h1

theorem tellEvents_clear {busy : List Obj} {h : Scene} {n : Nat} {evs : List ParseEvent} (hk : Kept busy h) (hn : .parser n ∈ busy)
    (h1 : evs.length ≤ 1) (hc : ∀ e ∈ evs, (h.text n).consumer = some e.consumer) : Clear (Kept busy) (tellEvents P k busy h evs) := by
  refine tellConsumers_clear hR hk (by simpa using h1) ?_
  intro c hcc
  obtain ⟨e, he, rfl⟩ := List.mem_map.mp hcc
  exact live_consumer hk hn (Or.inr (hc e he))

omit hR in
theorem setText_text' (h : Scene) (n : Nat) (t : TextParser) : (h.setText n t).text n = t := setText_text h.w n t

theorem tellCalls_clear {busy : List Obj} {h : Scene} {n : Nat} {t : TextParser} {evs : List ParseEvent} (hk : Kept busy h) (hn : .parser n ∈ busy)
    (h1 : evs.length ≤ 1) (hc : Calls (h.text n).consumer t evs) : Clear (Kept busy) (tellEvents P k busy (h.setText n t) evs) := by
  refine tellEvents_clear hR (kept_setText hk hc.1) hn h1 ?_
  intro e he
  rw [setText_text', hc.1]
  exact hc.2 e he

theorem findToken_clear {busy : List Obj} {h : Scene} {n : Nat} (hk : Kept busy h) (hn : .parser n ∈ busy) (o : Nat) (cs : List Byte)
    (d : TextParser.Dest) : Clear (fun x => Kept busy x.1) (findToken P k busy h n o cs d) := by
  refine clear_bind (R := fun x => (h.text n).findToken o cs d = .ok x) (clear_lift fun _ h => h) ?_
  rintro ⟨t, evs, r⟩ hx
  exact clear_bind (tellCalls_clear hR hk hn (findToken_one hx) (findToken_calls hx)) (fun g hg => clear_pure hg)

theorem processStep_clear {busy : List Obj} {h : Scene} {n : Nat} (hk : Kept busy h) (hn : .parser n ∈ busy) (o : Nat) :
    Clear (fun x => Kept busy x.1) (processStep P k busy h n o) := by
  have plain : (h.text n).state ≠ .PARSING_KEY → (h.text n).state ≠ .PARSING_VALUE →
      Clear (fun x => Kept busy x.1) (do
        let (t, evs, consumed, stop) ← RunD.lift ((h.text n).processStep o)
        let h ← tellEvents P k busy (h.setText n t) evs
        pure (h, consumed, stop) : RunD (Scene × Nat × Bool)) := by
    intro h1 h2
    refine clear_bind (R := fun x => (h.text n).processStep o = .ok x) (clear_lift fun _ h => h) ?_
    rintro ⟨t, evs, c, s⟩ hx
    exact clear_bind (tellCalls_clear hR hk hn (processStep_one hx h1 h2) (processStep_calls hx)) (fun g hg => clear_pure hg)
  have use1 : ∀ {g : Scene}, Kept busy g → ∀ o ∈ [Obj.parser n], g.live o = true := by
    intro g hg o ho
    rw [List.mem_singleton.mp ho]
    exact hg.used _ hn
  unfold processStep
  split
  · rename_i h0; exact plain (by rw [h0]; decide) (by rw [h0]; decide)
  · rename_i h0; exact plain (by rw [h0]; decide) (by rw [h0]; decide)
  · rename_i h0; exact plain (by rw [h0]; decide) (by rw [h0]; decide)
  · rename_i h0; exact plain (by rw [h0]; decide) (by rw [h0]; decide)
  · refine clear_bind (findToken_clear hR hk hn _ _ _) ?_
    rintro ⟨g, r⟩ hg
    dsimp only at hg ⊢
    split
    · refine clear_used (use1 hg) ?_
      split
      · exact clear_pure (kept_setText hg rfl)
      · split
        · refine clear_bind (R := fun _ => True) (clear_lift fun _ _ => trivial) ?_
          intro value _
          have hg' : Kept busy (g.setText n { g.text n with value := value }) := kept_setText hg rfl
          refine clear_bind (tellEvents_clear hR hg' hn (emit_one _) (emit_calls _)) ?_
          intro g2 hg2
          refine clear_used (use1 hg2) (clear_bind (R := fun _ => True) (clear_lift fun _ _ => trivial) ?_)
          intro key _
          exact clear_pure (kept_setText hg2 rfl)
        · exact clear_pure hg
    · exact clear_pure hg
  · refine clear_bind (findToken_clear hR hk hn _ _ _) ?_
    rintro ⟨g, r⟩ hg
    dsimp only at hg ⊢
    split
    · refine clear_used (use1 hg) ?_
      refine clear_bind (tellEvents_clear hR hg hn (emit_one _) (emit_calls _)) ?_
      intro g2 hg2
      refine clear_used (use1 hg2) (clear_bind (R := fun _ => True) (clear_lift fun _ _ => trivial) ?_)
      intro key _
      have hg3 : Kept busy (g2.setText n { g2.text n with key := key }) := kept_setText hg2 rfl
      refine clear_bind (R := fun _ => True) (clear_lift fun _ _ => trivial) ?_
      intro value _
      exact clear_pure (kept_setText hg3 rfl)
    · exact clear_pure hg

theorem processLoop_clear {busy : List Obj} (fuel : Nat) : ∀ {h : Scene} {n : Nat}, Kept busy h → .parser n ∈ busy → ∀ o,
    Clear (fun x => Kept busy x.1) (processLoop P k busy fuel h n o) := by
  induction fuel with
  | zero => intro h n hk hn o; exact clear_lift (fun _ h => by cases h)
  | succ fuel ih =>
    intro h n hk hn o
    unfold processLoop
    refine clear_used (fun o ho => by rw [List.mem_singleton.mp ho]; exact hk.used _ hn) ?_
    split
    · refine clear_bind (processStep_clear hR hk hn o) ?_
      rintro ⟨g, c, s⟩ hg
      dsimp only at hg ⊢
      split
      · exact clear_pure hg
      · exact ih hg hn _
    · exact clear_pure hk

theorem reportParseError_clear {busy : List Obj} {h : Scene} {n : Nat} (hk : Kept busy h) (hn : .parser n ∈ busy) :
    Clear (Kept busy) (reportParseError P k busy h n) := by
  refine clear_bind (R := fun x => (h.text n).reportParseError = .ok x) (clear_lift fun _ h => h) ?_
  rintro ⟨t, evs⟩ hx
  exact tellCalls_clear hR hk hn (reportParseError_one hx) (reportParseError_calls hx)

theorem addLoop_clear {busy : List Obj} (fuel : Nat) : ∀ {h : Scene} {n : Nat}, Kept busy h → .parser n ∈ busy → ∀ input i,
    Clear (Kept busy) (addLoop P k busy fuel h n input i) := by
  induction fuel with
  | zero => intro h n hk hn input i; exact clear_lift (fun _ h => by cases h)
  | succ fuel ih =>
    intro h n hk hn input i
    unfold addLoop
    split
    · split
      · exact reportParseError_clear hR hk hn
      · refine clear_bind (R := fun _ => True) (clear_lift fun _ _ => trivial) ?_
        rintro ⟨buffer, m⟩ -
        have hg : Kept busy (h.setText n { h.text n with buffer := buffer }) := kept_setText hk rfl
        refine clear_bind (processLoop_clear hR _ hg hn 0) ?_
        rintro ⟨g, c⟩ hg
        dsimp only at hg ⊢
        refine clear_used (fun o ho => by rw [List.mem_singleton.mp ho]; exact hg.used _ hn) ?_
        refine clear_bind (R := fun _ => True) (clear_lift fun _ _ => trivial) ?_
        intro buffer _
        exact ih (kept_setText (n := n) (t := { g.text n with buffer := buffer }) hg rfl) hn _ _
    · exact clear_pure hk

theorem addText_clear {busy : List Obj} {h : Scene} {n : Nat} (hk : Kept busy h) (hn : .parser n ∈ busy) (input : BufferManager) :
    Clear (Kept busy) (addText P k busy h n input) := by
  unfold addText
  split
  · exact reportParseError_clear hR hk hn
  · exact addLoop_clear hR _ hk hn _ _

omit hR in
theorem kept_more {busy : List Obj} {h : Scene} {o : Obj} (hk : Kept busy h) (ho : h.live o = true) : Kept (o :: busy) h :=
  ⟨hk.pointers, fun x hx => (List.mem_cons.mp hx).elim (fun e => e ▸ ho) (hk.used x)⟩

theorem parserReset_clear {busy : List Obj} {h : Scene} {n : Nat} (hk : Kept busy h) (hn : h.live (.parser n) = true) :
    Clear (Kept busy) (parserReset P k busy h n) := by
  refine clear_used (fun o ho => by rw [List.mem_singleton.mp ho]; exact hn) ?_
  refine clear_bind (tellConsumers_clear hR (kept_more hk hn) (resetNotify_one _)
    (fun c hc => hk.pointers.objects _ _ hn (.consumer n _ (Or.inl (resetNotify_has _ c hc))))) ?_
  intro g hg
  refine clear_used (fun o ho => by rw [List.mem_singleton.mp ho]; exact hg.used _ (by simp)) ?_
  refine clear_bind (R := fun p => ∀ c, ¬p.has c) (clear_lift fun p hp => resetClear_has hp) ?_
  intro p hp
  exact clear_pure (kept_less (kept_setParser hg (fun c hc => (hp c hc).elim)) (fun o ho => List.mem_cons_of_mem _ ho))

theorem parserData_clear {busy : List Obj} {h : Scene} {n : Nat} (hk : Kept busy h) (hn : h.live (.parser n) = true) (d : Data) :
    Clear (Kept busy) (parserData P k busy h n d) := by
  refine clear_bind (R := fun _ => True) (clear_lift fun _ _ => trivial) ?_
  intro crc _
  have h0 : Kept busy (h.setParser n { h.w.parsers n with
      remaining := (h.w.parsers n).remaining - d.dlc.zeroExtend 32
      crc := some ((d.bytes.take d.dlc.toNat).foldl Crc.updateCrc crc) }) := kept_setParser hk (fun c hc => hc)
  refine clear_bind (addText_clear hR (kept_more h0 hn) (List.mem_cons_self ..) _) ?_
  intro g hg
  have hn' := hg.used (.parser n) (by simp)
  have hg' : Kept busy g := kept_less hg (fun o ho => List.mem_cons_of_mem _ ho)
  refine clear_used (fun o ho => by rw [List.mem_singleton.mp ho]; exact hn') ?_
  split
  · refine clear_bind (R := fun _ => True) (clear_lift fun _ _ => trivial) ?_
    intro crc _
    have fin : ∀ (s : StreamState) (a : ConsumerAction), Clear (Kept busy)
        (tellConsumers P k busy (g.setParser n { g.w.parsers n with state := s })
          (((g.setParser n { g.w.parsers n with state := s }).w.parsers n).notify a)) := by
      intro s a
      have hs : Kept busy (g.setParser n { g.w.parsers n with state := s }) := kept_setParser hg' (fun c hc => hc)
      exact tellConsumers_clear hR hs (notify_one _ _) (fun c hc => hs.pointers.objects _ _ hn' (.consumer n _ (Or.inl (notify_has _ _ c hc))))
    split
    · exact fin _ _
    · exact fin _ _
  · exact clear_pure hg'

theorem parserAdd_clear {busy : List Obj} {h : Scene} {n : Nat} (hk : Kept busy h) (hn : h.live (.parser n) = true) (d : Data) :
    Clear (Kept busy) (parserAdd P k busy h n d) := by
  refine clear_used (fun o ho => by rw [List.mem_singleton.mp ho]; exact hn) ?_
  split
  · exact parserReset_clear hR hk hn
  · split
    · exact parserData_clear hR hk hn d
    · rename_i hd
      refine clear_bind (R := fun x => (h.w.parsers n).addMessage d = .ok x) (clear_lift fun _ h => h) ?_
      rintro ⟨p, calls⟩ hx
      refine tellConsumers_clear hR (kept_setParser hk (addMessage_has hx).1) (addMessage_one hx hd) ?_
      intro c hc
      exact hk.pointers.objects _ _ hn (.consumer n _ ((addMessage_has hx).2 c hc))

theorem tell_clear {busy : List Obj} {h : Scene} (hk : Kept busy h) (e : LogEntry) : Clear (Kept busy) (tell P k busy h e) :=
  hR busy _ e (kept_put hk hk.pointers.station (fun o o' ho hp => hk.pointers.objects o o' ho (points_congr (w := h.w) (w' := h.w.logAll [e]) (fun _ _ h => h) rfl o o' hp)))

/-- The calls of a function of the station other than those that send: at most one, on an object that exists; or they are for the transmit
callback, which is looked up when its turn comes. -/
theorem runCall_clear {busy : List Obj} {h : Scene} {c : Call} (hk : Kept busy h) (hc : h.live c.target = true ∨ ∃ cb f, c = .tx cb f) :
    Clear (Kept busy) (runCall P k busy h c) := by
  have ht : ∀ cb f, Clear (Kept busy) (runCall P k busy h (.tx cb f)) := by
    intro cb f
    unfold runCall
    dsimp only
    split
    · exact clear_lift (fun _ h => by cases h)
    · rename_i cb' hcb
      exact clear_used (fun o ho => by rw [List.mem_singleton.mp ho]; exact hk.pointers.station _ (.tx cb' hcb)) (tell_clear hR hk _)
  rcases hc with hc | ⟨cb, f, rfl⟩
  · have other : ∀ o, h.live o = true → Clear (Kept busy) (do h.use [o]; tell P k busy h (.call c) : RunD Scene) :=
      fun o ho => clear_used (fun x hx => by rw [List.mem_singleton.mp hx]; exact ho) (tell_clear hR hk _)
    cases c with
    | tx cb f => exact ht cb f
    | cfgStart n =>
      exact clear_used (fun o ho => by rw [List.mem_singleton.mp ho]; exact hc) (clear_pure (kept_setParser hk (fun _ h => h)))
    | cfgAdd n d => exact parserAdd_clear hR hk hc d
    | cfgReset n => exact parserReset_clear hR hk hc
    | _ => exact other _ hc
  · exact ht cb f

/-- Only the first call can be one that is not for the transmit callback. -/
def Orderly (h : Scene) : List Call → Prop
  | [] => True
  | c :: cs => (h.live c.target = true ∨ ∃ cb f, c = .tx cb f) ∧ ∀ x ∈ cs, ∃ cb f, x = .tx cb f

theorem runTx_clear {busy : List Obj} (cs : List Call) : ∀ {h : Scene}, Kept busy h → (∀ x ∈ cs, ∃ cb f, x = .tx cb f) →
    Clear (Kept busy) (cs.foldlM (runCall P k busy) h) := by
  induction cs with
  | nil => intro h hk _; exact clear_pure hk
  | cons c cs ih =>
    intro h hk hc
    rw [List.foldlM_cons]
    exact clear_bind (runCall_clear hR hk (Or.inr (hc c (by simp)))) (fun g hg => ih hg (fun x hx => hc x (by simp [hx])))

theorem runCalls_clear {busy : List Obj} {h : Scene} {r : Res (List Call)} (hk : Kept busy h) (hr : ∀ cs, r = .ok cs → Orderly h cs) :
    Clear (Kept busy) (runCalls P k busy h r) := by
  refine clear_bind (R := fun cs => r = .ok cs) (clear_lift fun _ h => h) ?_
  intro cs hcs
  have ho := hr cs hcs
  cases cs with
  | nil => exact clear_pure hk
  | cons c cs =>
    rw [List.foldlM_cons]
    exact clear_bind (runCall_clear hR hk ho.1) (fun g hg => runTx_clear hR cs hg ho.2)

omit hR in
theorem orderly_tx {h : Scene} {cs : List Call} (hc : ∀ x ∈ cs, ∃ cb f, x = .tx cb f) : Orderly h cs := by
  cases cs with
  | nil => trivial
  | cons c cs => exact ⟨Or.inr (hc c (by simp)), fun x hx => hc x (by simp [hx])⟩

omit hR in
theorem txSend_tx {s : Station} {f : CanFrame} {cs : List Call} (h : s.txSend f = .ok cs) : ∀ x ∈ cs, ∃ cb g, x = .tx cb g := by
  unfold Station.txSend at h
  split at h
  · cases h
  · cases h; intro x hx; rw [List.mem_singleton] at hx; exact ⟨_, _, hx⟩

omit hR in
theorem orderly_send {h : Scene} {s : Station} {f : CanFrame} : ∀ cs, s.txSend f = .ok cs → Orderly h cs := fun _ hcs => orderly_tx (txSend_tx hcs)

theorem finish_clear {busy : List Obj} {h : Scene} (hk : Kept busy h) :
    Clear (fun g => Kept busy g ∧ g.w.station.callbacks.configData = none) (finish P k busy h) := by
  unfold finish
  split
  · next h0 => exact clear_pure ⟨hk, h0⟩
  · next n h0 =>
    refine clear_bind (parserReset_clear hR hk (hk.pointers.station _ (.parser n h0))) ?_
    intro g hg
    refine clear_pure ⟨kept_put hg ?_ ?_, rfl⟩
    · intro o ho
      apply hg.pointers.station
      cases ho with
      | tx m hm => exact .tx m hm
      | system m hm => exact .system m hm
      | engineCbk m hm => exact .engineCbk m hm
      | accessory m hm => exact .accessory m hm
      | parser m hm => cases hm
    · exact fun o o' ho hp => hg.pointers.objects o o' ho (points_congr (w := g.w) (w' := g.w.register none) (fun _ _ h => h) rfl o o' hp)

theorem send8_clear {busy : List Obj} {h : Scene} (hk : Kept busy h) (id : Identifier) (bytes : List Byte) :
    Clear (Kept busy) (send8 P k busy h id bytes) := runCalls_clear hR hk orderly_send

omit hR in
theorem kept_append {busy os : List Obj} {h : Scene} (hk : Kept busy h) (ho : ∀ o ∈ os, h.live o = true) : Kept (os ++ busy) h :=
  ⟨hk.pointers, fun x hx => (List.mem_append.mp hx).elim (ho x) (hk.used x)⟩

omit hR in
theorem kept_register {busy : List Obj} {h : Scene} {p : Option Nat} (hk : Kept busy h) (hp : ∀ n, p = some n → h.live (.parser n) = true) :
    Kept busy (h.put (h.w.register p)) := by
  refine kept_put hk ?_ ?_
  · intro o ho
    cases ho with
    | tx m hm => exact hk.pointers.station _ (.tx m hm)
    | system m hm => exact hk.pointers.station _ (.system m hm)
    | engineCbk m hm => exact hk.pointers.station _ (.engineCbk m hm)
    | accessory m hm => exact hk.pointers.station _ (.accessory m hm)
    | parser m hm => exact hp m hm
  · exact fun o o' ho hpt => hk.pointers.objects o o' ho (points_congr (w := h.w) (w' := h.w.register p) (fun _ _ h => h) rfl o o' hpt)

theorem requestEngine_clear {busy : List Obj} {h : Scene} {engine : List Obj} {p : Option Nat} (hk : Kept busy h)
    (he : ∀ o ∈ engine, h.live o = true) (hp : ∀ n, p = some n → h.live (.parser n) = true) (info : World → ShortInfo) :
    Clear (Kept busy) (requestEngine P k busy h engine info p) := by
  have any : ∀ {α : Type} (r : Res α), Clear (fun _ => True) (RunD.lift r) := fun r => clear_lift (fun _ _ => trivial)
  have hpl : ∀ o ∈ p.toList.map Obj.parser, h.live o = true := by
    intro o ho
    obtain ⟨n, hn, rfl⟩ := List.mem_map.mp ho
    exact hp n (by simpa using hn)
  unfold requestEngine
  split
  · exact clear_pure hk
  · split
    · exact clear_pure hk
    · refine clear_bind (finish_clear hR (kept_append hk (os := p.toList.map .parser ++ engine)
        (fun o ho => (List.mem_append.mp ho).elim (hpl o) (he o)))) ?_
      rintro g ⟨hg, -⟩
      have hgp : ∀ n, p = some n → g.live (.parser n) = true := fun n hn => hg.used _ (by simp [hn])
      have h1 : Kept (engine ++ busy) (g.put (g.w.register p)) := kept_less (kept_register hg hgp) (fun o ho => by
        rw [List.append_assoc]; exact List.mem_append_right _ ho)
      refine clear_used (fun o ho => ?_) ?_
      · obtain ⟨n, hn, rfl⟩ := List.mem_map.mp ho
        exact hgp n (by simpa using hn)
      have tail : ∀ (g2 : Scene) (id : Identifier), Kept (engine ++ busy) g2 → Clear (Kept busy) (do
          let mem ← RunD.lift (strncpy ({} : Data).bytes kEngine Data.kDataBufferLength)
          let h ← send8 P k (engine ++ busy) g2 id mem
          h.use engine
          let engineNameLength ← RunD.lift (strlen (info h.w).name)
          let mem ← RunD.lift (strncpy ({} : Data).bytes (info h.w).name CanDataMaxLength)
          let long := decide (engineNameLength > CanDataMaxLength)
          let h ← send8 P k ((if long then engine else []) ++ busy) h id mem
          h.use (if long then engine else [])
          let mem ← RunD.lift (if long then
              strncpy ({} : Data).bytes ((info h.w).name.drop CanDataMaxLength) CanDataMaxLength
            else .ok ({} : Data).bytes)
          send8 P k busy h id mem : RunD Scene) := by
        intro g2 id hg2
        refine clear_bind (any _) (fun _ _ => clear_bind (send8_clear hR hg2 _ _) (fun g3 hg3 => ?_))
        refine clear_used (fun o ho => hg3.used o (List.mem_append_left _ ho)) ?_
        refine clear_bind (any _) (fun l _ => clear_bind (any _) (fun _ _ => ?_))
        have h4 : Kept ((if decide (l > CanDataMaxLength) then engine else []) ++ busy) g3 := by
          split
          · exact hg3
          · exact kept_less hg3 (fun o ho => List.mem_append_right _ ho)
        refine clear_bind (send8_clear hR h4 _ _) (fun g4 hg4 => ?_)
        refine clear_used (fun o ho => hg4.used o (List.mem_append_left _ ho)) ?_
        refine clear_bind (any _) (fun _ _ => send8_clear hR (kept_less hg4 (fun o ho => List.mem_append_right _ ho)) _ _)
      cases p with
      | none => exact tail _ _ h1
      | some n => exact tail _ _ (kept_setParser h1 (fun _ h => h))

omit hR in
theorem kept_step {busy : List Obj} {h : Scene} {op : Op} {w : World} (hk : Kept busy h) (hm : ∀ o, Mentions op o → h.live o = true)
    (hw : h.w.step op = .ok w) : Kept busy (h.put w) := by
  obtain ⟨h1, h2⟩ := step_points hw
  refine kept_put hk (fun o ho => (h1 o ho).elim (hk.pointers.station o) (hm o)) ?_
  intro o o' ho hp
  rcases h2 o o' hp with hp | ⟨-, hp⟩
  · exact hk.pointers.objects o o' ho hp
  · exact hm o' hp

omit hR in
theorem handle_one {s : Station} {b : Bool} {f : CanFrame} {cs : List Call} (h : s.HandlePacket b f = .ok cs) : cs.length ≤ 1 := by
  have printed : ∀ {d : Data}, (do let _ ← d.printed; .ok [] : Res (List Call)) = .ok cs → cs.length ≤ 1 := by
    intro d h
    obtain ⟨_, -, h⟩ := bind_ok h
    cases h; simp
  unfold Station.HandlePacket at h
  dsimp only at h
  split at h
  · unfold Station.HandleSystemCommand at h
    dsimp only at h
    repeat' split at h
    all_goals (cases h; simp)
  · split at h
    · cases h; simp
    · split at h
      · unfold Station.HandleAccessoryPacket at h
        split at h
        · cases h; simp
        · cases h; simp
      · split at h
        · unfold Station.HandleLocoDirection at h
          dsimp only at h
          repeat' split at h
          all_goals first
            | (cases h; done)
            | (cases h; simp)
        · split at h
          · unfold Station.HandleLocoSpeed at h
            dsimp only at h
            repeat' split at h
            all_goals (cases h; simp)
          · split at h
            · unfold Station.HandleLocoFunction at h
              repeat' split at h
              all_goals first
                | (cases h; done)
                | (cases h; simp)
            · split at h
              · cases h; simp
              · split at h
                · unfold Station.HandleConfigDataStream at h
                  split at h
                  · exact printed h
                  · split at h
                    · cases h; simp
                    · exact printed h
                · split at h
                  · exact printed h
                  · exact printed h

theorem step_clear {busy : List Obj} {h : Scene} {op : Op} (hk : Kept busy h) (hm : ∀ o, Mentions op o → h.live o = true) :
    Clear (Kept busy) (step P k busy h op) := by
  have plain : Clear (Kept busy) (do let w ← RunD.lift (h.w.step op); pure (h.put w) : RunD Scene) :=
    clear_bind (R := fun w => h.w.step op = .ok w) (clear_lift fun _ h => h) (fun w hw => clear_pure (kept_step hk hm hw))
  have hu : ∀ o ∈ h.w.opUses op, h.live o = true := fun o ho => (opUses_has ho).elim (hk.pointers.station o) (hm o)
  have fin : Clear (Kept busy) (finish P k busy h) := clear_mono (finish_clear hR hk) (fun _ h => h.1)
  have send : ∀ f : CanFrame, Clear (Kept busy) (runCalls P k busy h (h.w.station.txSend f)) := fun f => runCalls_clear hR hk orderly_send
  have list : ∀ p : Option Nat, (∀ n, p = some n → h.live (.parser n) = true) → ∀ o ∈ p.toList.map Obj.parser, h.live o = true := by
    intro p hp o ho
    obtain ⟨n, hn, rfl⟩ := List.mem_map.mp ho
    exact hp n (by simpa using hn)
  refine clear_used hu ?_
  cases op with
  | begin_ u cbs =>
    have hc : ∀ o, Mentions (.begin_ u cbs) o ↔ o ∈ ofCallbacks cbs := by
      intro o
      constructor
      · intro ho
        cases ho with
        | beginTx n _ _ h => simp [ofCallbacks, h]
        | beginSystem n _ _ h => simp [ofCallbacks, h]
        | beginEngine n _ _ h => simp [ofCallbacks, h]
        | beginAccessory n _ _ h => simp [ofCallbacks, h]
        | beginParser n _ _ h => simp [ofCallbacks, h]
      · intro ho
        simp only [ofCallbacks, List.mem_append, List.mem_map, Option.mem_toList] at ho
        rcases ho with (((⟨n, h, rfl⟩ | ⟨n, h, rfl⟩) | ⟨n, h, rfl⟩) | ⟨n, h, rfl⟩) | ⟨n, h, rfl⟩
        · exact .beginTx _ _ n h
        · exact .beginSystem _ _ n h
        · exact .beginEngine _ _ n h
        · exact .beginAccessory _ _ n h
        · exact .beginParser _ _ n h
    refine clear_bind (finish_clear hR (kept_append hk (fun o ho => hm o ((hc o).mpr ho)))) ?_
    rintro g ⟨hg, -⟩
    refine clear_bind (R := fun w => g.w.step (.begin_ u cbs) = .ok w) (clear_lift fun _ h => h) ?_
    intro w hw
    exact clear_pure (kept_less (kept_step hg (fun o ho => hg.used o (List.mem_append_left _ ((hc o).mp ho))) hw)
      (fun o ho => List.mem_append_right _ ho))
  | requestEngineList off p =>
    have hp : ∀ n, p = some n → h.live (.parser n) = true := by rintro n rfl; exact hm _ (.listParser off n)
    refine clear_bind (finish_clear hR (kept_append hk (list p hp))) ?_
    rintro g ⟨hg, hfree⟩
    refine clear_bind (R := fun x => g.w.station.RequestEngineList off p = .ok x) (clear_lift fun _ h => h) ?_
    rintro ⟨s, calls⟩ hx
    have hgp : ∀ n, p = some n → g.live (.parser n) = true := fun n hn => hg.used _ (by simp [hn])
    unfold Station.RequestEngineList Station.AbortCurrentConfigRequest Station.FinishCurrentConfigRequest at hx
    rw [hfree] at hx
    dsimp only at hx
    obtain ⟨m1, -, hx⟩ := bind_ok hx
    obtain ⟨⟨m2, l⟩, -, hx⟩ := bind_ok hx
    dsimp only at hx
    have hs : ∀ s : Station, s = { g.w.station with callbacks := { g.w.station.callbacks with configData := p } } →
        Kept busy (g.put { g.w with station := s }) := by
      rintro s rfl
      exact kept_less (kept_register hg hgp) (fun o ho => List.mem_append_right _ ho)
    split at hx
    · obtain ⟨t1, g1, hx⟩ := bind_ok hx
      obtain ⟨t2, g2, hx⟩ := bind_ok hx
      cases hx
      refine runCalls_clear hR (hs _ rfl) ?_
      intro cs hcs
      cases hcs
      have hts : ∀ x ∈ t1 ++ t2, ∃ cb f, x = Call.tx cb f := fun x hx => (List.mem_append.mp hx).elim (txSend_tx g1 x) (txSend_tx g2 x)
      cases p with
      | none => exact orderly_tx (by simpa using hts)
      | some n => exact ⟨Or.inl (hgp n rfl), by simpa using hts⟩
    · cases hx
      exact runCalls_clear hR (hs _ rfl) (fun cs hcs => by cases hcs; trivial)
  | requestEngine e p =>
    exact requestEngine_clear hR hk (fun o ho => by rw [List.mem_singleton.mp ho]; exact hm _ (.requestEngine e p))
      (by rintro n rfl; exact hm _ (.requestParser e n)) _
  | requestShortInfo i p => exact requestEngine_clear hR hk (fun o ho => by cases ho) (by rintro n rfl; exact hm _ (.shortParser i n)) _
  | finish => exact fin
  | abort => exact fin
  | notifyReceived => exact fin
  | handle f =>
    refine runCalls_clear hR hk ?_
    intro cs hcs
    have h1 := handle_one hcs
    have h2 := aims_handle _ _ _ _ hcs
    match cs, h1, h2 with
    | [], _, _ => trivial
    | [c], _, h2 => exact ⟨Or.inl (hk.pointers.station _ (h2 c (List.mem_singleton.mpr rfl))), fun x hx => by cases hx⟩
    | _ :: _ :: _, h1, _ => simp at h1
  | parserAdd n d => exact parserAdd_clear hR hk (hm _ (.parserAdd n d)) d
  | parserReset n => exact parserReset_clear hR hk (hm _ (.parserReset n))
  | requestAllFunctions e => exact runCalls_clear hR hk (fun cs hcs => orderly_tx (allFunctionsLoop_tx _ _ _ _ _ hcs))
  | requestDirection e => exact send _
  | sendDirection e d =>
    refine runCalls_clear hR hk ?_
    intro cs hcs
    unfold Station.SendEngineDirection at hcs
    split at hcs
    · exact orderly_send cs hcs
    · cases hcs; trivial
  | requestVelocity e => exact send _
  | sendVelocity e v => exact send _
  | requestFunction e f => exact send _
  | sendFunction e f v => exact send _
  | sendEmergencyStop e => exact send _
  | sendStop => exact send _
  | sendGo => exact send _
  | sendAccessory a p d pw => exact send _
  | sendPacket f => exact send _
  | _ => exact plain

end

/-! ## Careful programs -/

theorem heeds_clear {f : Scene → Act → RunD Scene} {busy : List Obj}
    (hcall : ∀ h op, Kept busy h → (∀ o, Mentions op o → h.live o = true) → Clear (Kept busy) (f h (.call op)))
    (hdest : ∀ h o, f h (.destroy o) = h.destroy o) {h : Scene} {acts : List Act} (hh : Heeds f busy h acts) (hk : Kept busy h) :
    Clear (Kept busy) (acts.foldlM f h) := by
  induction hh with
  | nil h => exact clear_pure hk
  | call h op acts hm hn ih =>
    rw [List.foldlM_cons]
    have hc := hcall h op hk hm
    refine clear_bind (R := fun g => (f h (.call op)).Returns g ∧ Kept busy g) ⟨hc.1, fun a ha => ⟨ha, hc.2 a ha⟩⟩ ?_
    rintro g ⟨hg, hgk⟩
    exact ih g hg hgk
  | destroy h o acts ho hs hp hb hn ih =>
    rw [List.foldlM_cons, hdest]
    refine clear_bind (R := fun g => g = h.drop o) (clear_used (fun x hx => by rw [List.mem_singleton.mp hx]; exact ho) (clear_pure rfl)) ?_
    rintro g rfl
    exact ih (kept_drop hk hs hp hb)

theorem polite_nested {P : ProgramD} (hP : P.Careful) (depth : Nat) : Polite P (nested P depth) := by
  induction depth with
  | zero =>
    intro busy h e hk
    exact heeds_clear (fun _ _ _ _ => clear_none) (fun _ _ => rfl) (hP 0 busy h e hk) hk
  | succ depth ih =>
    intro busy h e hk
    exact heeds_clear (fun g op hg hm => step_clear ih hg hm) (fun _ _ => rfl) (hP (depth + 1) busy h e hk) hk

end Scene

end RR32
