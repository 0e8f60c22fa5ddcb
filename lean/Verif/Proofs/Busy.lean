import Verif.Props.Browse
import Verif.Props.Traffic

/-! # What the frames and commands on a busy bus may change while an application waits for an answer -/

set_option autoImplicit false

namespace RR32

open Spec

/-! ## One call on a consumer -/

/-- A list as an application of C81 uses it. -/
def ListShape (cb : Nat) (x : Consumer) : Prop :=
  ∃ l, x = .list l ∧ l.streamEndCallback = .obj cb ∧ l.engineInfo.length = 2 ∧ ∀ i ∈ l.engineInfo, i.name.length = 33

theorem reset_names (l : LocoListConsumer) : ∀ i ∈ l.clearTable.engineInfo, i.name.length = 33 := by
  intro i hi
  simp only [LocoListConsumer.clearTable, List.mem_map] at hi
  obtain ⟨j, -, rfl⟩ := hi
  simp [ShortInfo.reset, ShortInfo.eraseName, kEngineNameLength]

theorem list_consume_shape {pf : Platform} {l d : LocoListConsumer} {s k v : BufferManager} (h : l.consumeConfigData pf s k v = .ok d)
    (hl : ∀ i ∈ l.engineInfo, i.name.length = 33) :
    d.streamEndCallback = l.streamEndCallback ∧ d.engineInfo.length = l.engineInfo.length ∧ ∀ i ∈ d.engineInfo, i.name.length = 33 := by
  unfold LocoListConsumer.consumeConfigData at h
  obtain ⟨b1, -, h⟩ := bind_ok h
  split at h
  · split at h
    · cases h; exact ⟨rfl, rfl, hl⟩
    · obtain ⟨_, -, h⟩ := bind_ok h
      obtain ⟨info, hi, h⟩ := bind_ok h
      cases h
      refine ⟨rfl, List.length_set, fun i hi' => ?_⟩
      rcases List.mem_or_eq_of_mem_set hi' with hi' | rfl
      · exact hl i hi'
      · obtain ⟨m, g1, g2⟩ := bind_ok hi
        cases g2
        exact (strncpy_mild _ _ _ (by simp [ShortInfo.reset, ShortInfo.eraseName])).2 m g1 |>.trans
          (by simp [ShortInfo.reset, ShortInfo.eraseName, kEngineNameLength])
  · obtain ⟨b2, -, h⟩ := bind_ok h
    split at h
    · obtain ⟨b3, -, h⟩ := bind_ok h
      split at h
      · obtain ⟨v, -, h⟩ := bind_ok h
        cases h; exact ⟨rfl, rfl, hl⟩
      · cases h; exact ⟨rfl, rfl, hl⟩
    · obtain ⟨_, -, h⟩ := bind_ok h
      cases h; exact ⟨rfl, rfl, hl⟩

/-- What a call on one consumer changes. -/
structure Touched (c : Nat) (w v : World) : Prop where
  station : v.station = w.station
  parsers : v.parsers = w.parsers
  pf : v.pf = w.pf
  others : ∀ i, i ≠ c → v.consumers i = w.consumers i
  loco : ∀ l, w.consumers c = .loco l → v.consumers = w.consumers ∧ ∀ x, l.currentEngine ≠ .obj x → v.engines x = w.engines x
  list : ∀ l, w.consumers c = .list l → v.engines = w.engines
  shape : ∀ cb, ListShape cb (w.consumers c) → ListShape cb (v.consumers c)

theorem callConsumer_touched {w v : World} {c : ConsumerCall} (h : w.callConsumer c = .ok v) : Touched c.consumer w v := by
  unfold World.callConsumer at h
  have hset : ∀ (w : World) n x, (w.setConsumer n x).consumers n = x := by intro w n x; simp [World.setConsumer]
  have hset' : ∀ (w : World) n x i, i ≠ n → (w.setConsumer n x).consumers i = w.consumers i := by intro w n x i hi; simp [World.setConsumer, hi]
  have hes : ∀ (es : Engines) n y x, x ≠ n → es.set n y x = es x := by intro es n y x hx; simp [Engines.set, hx]
  dsimp only at h
  have hshape : ∀ l cb, w.consumers c.consumer = .loco l → ¬ListShape cb (w.consumers c.consumer) := by
    rintro l cb h1 ⟨k, h2, -⟩
    rw [h1] at h2
    cases h2
  split at h
  · next l _ _ _ h1 h2 =>
    have h1 : w.consumers c.consumer = .loco l := h1
    obtain ⟨es, h3, h4⟩ := bind_ok h
    cases h4
    refine ⟨rfl, rfl, rfl, fun _ _ => rfl, fun k hk => ⟨rfl, fun x hx => ?_⟩, fun k hk => ?_, fun cb hk => (hshape l cb h1 hk).elim⟩
    · rw [h1] at hk
      cases hk
      obtain ⟨o, ho, h3⟩ := bind_ok h3
      cases o with
      | none => cases h3; rfl
      | some n =>
        obtain ⟨e, -, h3⟩ := bind_ok h3
        cases h3
        refine hes _ _ _ _ ?_
        rintro rfl
        cases hc : l.currentEngine with
        | uninit => rw [hc] at ho; cases ho
        | null => rw [hc] at ho; cases ho
        | obj m => rw [hc] at ho hx; cases ho; exact hx rfl
    · rw [h1] at hk; cases hk
  · next l h1 h2 =>
    have h1 : w.consumers c.consumer = .loco l := h1
    obtain ⟨⟨es, ends⟩, h3, h4⟩ := bind_ok h
    cases h4
    refine ⟨rfl, rfl, rfl, fun _ _ => rfl, fun k hk => ⟨rfl, fun x hx => ?_⟩, fun k hk => ?_, fun cb hk => (hshape l cb h1 hk).elim⟩
    · rw [h1] at hk
      cases hk
      obtain ⟨o, ho, h3⟩ := bind_ok h3
      cases o with
      | none => cases h3; rfl
      | some n =>
        obtain ⟨_, -, h3⟩ := bind_ok h3
        obtain ⟨_, -, h3⟩ := bind_ok h3
        cases h3
        refine hes _ _ _ _ ?_
        rintro rfl
        cases hc : l.currentEngine with
        | uninit => rw [hc] at ho; cases ho
        | null => rw [hc] at ho; cases ho
        | obj m => rw [hc] at ho hx; cases ho; exact hx rfl
    · rw [h1] at hk; cases hk
  · next l h1 h2 =>
    have h1 : w.consumers c.consumer = .loco l := h1
    obtain ⟨ends, -, h4⟩ := bind_ok h
    cases h4
    exact ⟨rfl, rfl, rfl, fun _ _ => rfl, fun k hk => ⟨rfl, fun x hx => rfl⟩, fun k hk => (by rw [h1] at hk; cases hk),
      fun cb hk => (hshape l cb h1 hk).elim⟩
  · next l _ _ _ h1 h2 =>
    have h1 : w.consumers c.consumer = .list l := h1
    obtain ⟨d, h3, h4⟩ := bind_ok h
    cases h4
    refine ⟨rfl, rfl, rfl, fun i hi => hset' _ _ _ i hi, fun k hk => (by rw [h1] at hk; cases hk), fun k hk => rfl, ?_⟩
    rintro cb ⟨k, hk, k1, k2, k3⟩
    rw [h1] at hk
    cases hk
    obtain ⟨j1, j2, j3⟩ := list_consume_shape h3 k3
    exact ⟨d, hset _ _ _, by rw [j1]; exact k1, by rw [j2]; exact k2, j3⟩
  · next l h1 h2 =>
    have h1 : w.consumers c.consumer = .list l := h1
    obtain ⟨⟨d, ends⟩, h3, h4⟩ := bind_ok h
    cases h4
    obtain ⟨cb, -, h3⟩ := bind_ok h3
    cases h3
    refine ⟨rfl, rfl, rfl, fun i hi => hset' _ _ _ i hi, fun k hk => (by rw [h1] at hk; cases hk), fun k hk => rfl, ?_⟩
    rintro cb ⟨k, hk, k1, k2, k3⟩
    rw [h1] at hk
    cases hk
    exact ⟨_, hset _ _ _, k1, k2, k3⟩
  · next l h1 h2 =>
    have h1 : w.consumers c.consumer = .list l := h1
    obtain ⟨⟨d, ends⟩, h3, h4⟩ := bind_ok h
    cases h4
    obtain ⟨cb, -, h3⟩ := bind_ok h3
    cases h3
    refine ⟨rfl, rfl, rfl, fun i hi => hset' _ _ _ i hi, fun k hk => (by rw [h1] at hk; cases hk), fun k hk => rfl, ?_⟩
    rintro cb ⟨k, hk, k1, k2, k3⟩
    rw [h1] at hk
    cases hk
    exact ⟨_, hset _ _ _, k1, by simp [LocoListConsumer.reset, LocoListConsumer.clearTable, k2], reset_names l⟩
  · next h1 =>
    cases h
    exact ⟨rfl, rfl, rfl, fun _ _ => rfl, fun k hk => ⟨rfl, fun x hx => rfl⟩, fun k hk => rfl, fun cb hk => hk⟩

theorem Touched.refl (c : Nat) (w : World) : Touched c w w :=
  ⟨rfl, rfl, rfl, fun _ _ => rfl, fun _ _ => ⟨rfl, fun _ _ => rfl⟩, fun _ _ => rfl, fun _ h => h⟩

/-- A list stays a list, and an engine consumer the same. -/
theorem Touched.kind {c : Nat} {w v : World} {cs : ConsumerCall} (hc : cs.consumer = c) (h : w.callConsumer cs = .ok v) :
    ∀ l, w.consumers c = .list l → ∃ d, v.consumers c = .list d := by
  intro l hl
  subst hc
  unfold World.callConsumer at h
  have hset : ∀ (w : World) n x, (w.setConsumer n x).consumers n = x := by intro w n x; simp [World.setConsumer]
  have hl' : (w.logAll [.consumer cs]).consumers cs.consumer = .list l := hl
  dsimp only at h
  rw [hl'] at h
  cases ha : cs.action <;> rw [ha] at h <;> dsimp only at h
  · obtain ⟨d, -, h⟩ := bind_ok h; cases h; exact ⟨_, hset _ _ _⟩
  · obtain ⟨⟨d, _⟩, -, h⟩ := bind_ok h; cases h; exact ⟨_, hset _ _ _⟩
  · obtain ⟨⟨d, _⟩, -, h⟩ := bind_ok h; cases h; exact ⟨_, hset _ _ _⟩

theorem callConsumers_touched (c : Nat) (cs : List ConsumerCall) (hc : ∀ x ∈ cs, x.consumer = c) (w v : World) (h : w.callConsumers cs = .ok v) :
    Touched c w v := by
  induction cs generalizing w with
  | nil => cases h; exact .refl c _
  | cons x cs ih =>
    rw [World.callConsumers_cons] at h
    obtain ⟨u, h1, h2⟩ := bind_ok h
    have hx := hc x (List.mem_cons_self ..)
    have a := callConsumer_touched h1
    rw [hx] at a
    have b := ih (fun y hy => hc y (List.mem_cons_of_mem _ hy)) u h2
    refine ⟨b.station.trans a.station, b.parsers.trans a.parsers, b.pf.trans a.pf, fun i hi => (b.others i hi).trans (a.others i hi), ?_, ?_,
      fun cb k => b.shape cb (a.shape cb k)⟩
    · intro l hl
      obtain ⟨a1, a2⟩ := a.loco l hl
      obtain ⟨b1, b2⟩ := b.loco l (by rw [a1]; exact hl)
      exact ⟨b1.trans a1, fun y hy => (b2 y hy).trans (a2 y hy)⟩
    · intro l hl
      obtain ⟨d, hd⟩ := Touched.kind hx h1 l hl
      rw [b.list d hd, a.list l hl]

/-! ## One packet -/

/-- Calls of a parser go to its consumer, which stays while it waits. -/
theorem addMessage_scope (p q : StreamParser) (s : Reader) (hp : SInv p s) (d : Data) (cs : List ConsumerCall) (h : p.addMessage d = .ok (q, cs)) :
    (∀ x ∈ cs, p.consumer = some x.consumer) ∧ (q.isProcessing = true → q.consumer = p.consumer) := by
  obtain ⟨q', cs', s', h1, -, h3, -⟩ := stream_step p s hp (.add d)
  have h1 : p.addMessage d = .ok (q', cs') := h1
  rw [h] at h1
  cases h1
  refine ⟨h3, fun hq => ?_⟩
  have hreset : p.addMessage d = p.reset → q.consumer = p.consumer := by
    intro he
    rw [he, reset_sinv p s hp] at h
    cases h
    cases hq
  cases hs : p.state with
  | IDLE => rw [quiet_step p (Or.inl hs) d] at h; cases h; rfl
  | STREAM_DONE => rw [quiet_step p (Or.inr hs) d] at h; cases h; rfl
  | WAITING_FIRST_PACKET =>
    by_cases hd : IsFirst d
    · obtain ⟨c, -, he⟩ := first_step p s hp hs d hd
      rw [he] at h
      split at h <;> (cases h; rfl)
    · exact hreset (first_bad p hs d hd)
  | WAITING_DATA_PACKET =>
    by_cases hd : d.dlc = 8#8
    · obtain ⟨c, q', cs', -, k1, -, -, -, k5, -⟩ := data_step p s hp hs d hd
      rw [h] at k1
      cases k1
      exact k5
    · exact hreset (data_bad p hs d hd)

/-! ## While the application waits -/

/-- What happens while an application waits for an answer: frames of any kind are received, and commands are sent. -/
def Heard (op : Op) : Prop := isControl op = true ∨ ∃ f, op = .handle f

theorem Heard.allowed {op : Op} (h : Heard op) (w : World) : Allowed w op ∧ op.viaStation = true ∧ ∀ u cbs, op ≠ .begin_ u cbs := by
  rcases h with h | ⟨f, rfl⟩
  · cases op <;> first | exact absurd (show false = true from h) Bool.false_ne_true | exact ⟨trivial, rfl, by intro u cbs h; cases h⟩
  · exact ⟨trivial, rfl, by intro u cbs h; cases h⟩

/-- Either something is added to the log only, or the registered parser gets a packet it waits for. -/
theorem heard_cases {w v : World} {op : Op} (cb : Nat) (htx : w.station.callbacks.tx = some cb) (he : w.station.callbacks.engine.isSome = true)
    (ho : Heard op) (h : w.step op = .ok v) :
    (∃ cs : List Call, v = w.logAll (cs.map .call)) ∨
      ∃ n d, w.station.callbacks.configData = some n ∧ (w.parsers n).isProcessing = true ∧ w.parserAdd n d = .ok v := by
  rcases ho with ho | ⟨f, rfl⟩
  · obtain ⟨cs, hcs⟩ := control_says op ho w.station cb htx he
    rw [hcs w (.refl _)] at h
    cases h
    exact Or.inl ⟨cs, rfl⟩
  · have h : w.stationCalls (w.station.HandlePacket w.processing f) = .ok v := h
    rw [HandlePacket_eq, if_neg (by rintro ⟨h1, -⟩; rw [h1] at he; cases he)] at h
    split at h
    · cases h
    · have h : w.runCalls (reaction w.station.callbacks w.processing f) = .ok v := h
      by_cases hf : commandOf f = 0x21
      · have hr : reaction w.station.callbacks w.processing f =
            if w.processing then toward w.station.callbacks.configData (.cfgAdd · f.data) else [] := by
          unfold reaction
          rw [hf]
          rfl
        rw [hr] at h
        split at h
        · next hp =>
          cases hc : w.station.callbacks.configData with
          | none => simp only [World.processing, hc] at hp; cases hp
          | some n =>
            rw [hc] at h
            have h : (w.parserAdd n f.data).bind (fun v => .ok v) = .ok v := h
            obtain ⟨u, h1, h2⟩ := bind_ok h
            cases h2
            exact Or.inr ⟨n, f.data, rfl, by simpa only [World.processing, hc] using hp, h1⟩
        · cases h
          exact Or.inl ⟨[], by simp [World.logAll]⟩
      · rw [World.runCalls_plain w _ (control_reaction w.station.callbacks w.processing f hf).2] at h
        cases h
        exact Or.inl ⟨_, rfl⟩

/-- Who may get the stream that is received, if one is. -/
inductive Taker where
  | anyone
  | list
  | engine (e : Nat)

/-- The stream that is received, if one is, goes to the taker. -/
def Pends (a : App) (t : Taker) (w : World) : Prop :=
  ∀ n c, w.station.callbacks.configData = some n → (w.parsers n).isProcessing = true → (w.parsers n).consumer = some c →
    match t with
    | .anyone => True
    | .list => c = a.list
    | .engine e => c = a.loco ∧ ∃ l, w.consumers a.loco = .loco l ∧ l.currentEngine = .obj e

theorem Pends.idle {a : App} {t : Taker} {w : World} (h : w.processing = false) : Pends a t w := by
  intro n c h1 h2 h3
  simp only [World.processing, h1] at h
  rw [h] at h2
  cases h2

theorem Pends.any (a : App) (w : World) : Pends a .anyone w := fun _ _ _ _ _ => trivial

/-- What may change while the application waits. -/
def Waited (a : App) (t : Taker) (w v : World) : Prop :=
  match t with
  | .anyone => True
  | .list => v.engines = w.engines
  | .engine e => (∀ x, x ≠ e → v.engines x = w.engines x) ∧ v.consumers a.list = w.consumers a.list

theorem Waited.refl (a : App) (t : Taker) (w : World) : Waited a t w w := by
  cases t
  · trivial
  · exact rfl
  · exact ⟨fun _ _ => rfl, rfl⟩

theorem Waited.trans {a : App} {t : Taker} {w v u : World} (h : Waited a t w v) (g : Waited a t v u) : Waited a t w u := by
  cases t
  · trivial
  · exact Eq.trans g h
  · exact ⟨fun x hx => (g.1 x hx).trans (h.1 x hx), g.2.trans h.2⟩

theorem Ready.ne {a : App} {w : World} (h : Ready a w) : a.list ≠ a.loco := by
  obtain ⟨l, hl, -⟩ := h.list
  obtain ⟨k, hk, -⟩ := h.loco
  intro e
  rw [e, hk] at hl
  cases hl

theorem heard_step {a : App} {t : Taker} {w v : World} {op : Op} (hr : Ready a w) (he : w.station.callbacks.engine.isSome = true)
    (hp : Pends a t w) (ho : Heard op) (h : w.step op = .ok v) :
    Ready a v ∧ v.station.callbacks.engine.isSome = true ∧ Pends a t v ∧ Waited a t w v := by
  have hs := (C58_step w hr.sound op (ho.allowed w).1).2 v h
  have ht := tidy_step hr.tidy hr.sound (ho.allowed w).2.1 h
  rcases heard_cases a.tx hr.tx he ho h with ⟨cs, rfl⟩ | ⟨n, d, h1, h2, h3⟩
  · exact ⟨⟨hs, ht, hr.tx, hr.pf, hr.list, hr.loco⟩, he, hp, by cases t; trivial; exact rfl; exact ⟨fun _ _ => rfl, rfl⟩⟩
  · obtain ⟨⟨q, cs⟩, h4, h5⟩ := bind_ok h3
    obtain ⟨s, hsinv⟩ := hr.sound.parsers n
    obtain ⟨k1, k2⟩ := addMessage_scope _ q s hsinv d cs h4
    cases hc : (w.parsers n).consumer with
    | none =>
      have : cs = [] := by
        cases cs with
        | nil => rfl
        | cons x cs => have := k1 x (List.mem_cons_self ..); rw [hc] at this; cases this
      subst this
      cases h5
      refine ⟨⟨hs, ht, hr.tx, hr.pf, hr.list, hr.loco⟩, he, ?_, by cases t; trivial; exact rfl; exact ⟨fun _ _ => rfl, rfl⟩⟩
      intro m c g1 g2 g3
      have : m = n := by rw [show (w.setParser n q).station.callbacks.configData = _ from h1] at g1; exact (Option.some.inj g1).symm
      subst this
      simp only [World.setParser, if_true] at g2 g3
      rw [k2 g2, hc] at g3
      cases g3
    | some c =>
      have ht' := callConsumers_touched c cs (fun x hx => by have := k1 x hx; rw [hc] at this; exact (Option.some.inj this).symm) _ _ h5
      have e1 : v.station = w.station := ht'.station
      have e2 : v.parsers = (w.setParser n q).parsers := ht'.parsers
      have hpn := hp n c h1 h2 hc
      have hlist : ∃ l, v.consumers a.list = .list l ∧ l.streamEndCallback = .obj a.listEnd ∧ l.engineInfo.length = 2 ∧ ∀ i ∈ l.engineInfo, i.name.length = 33 := by
        by_cases hcl : a.list = c
        · have := ht'.shape a.listEnd (by rw [← hcl]; exact hr.list)
          rw [← hcl] at this
          exact this
        · rw [ht'.others _ hcl]
          exact hr.list
      have hloco : v.consumers a.loco = w.consumers a.loco := by
        by_cases hcl : a.loco = c
        · obtain ⟨l, hl, -⟩ := hr.loco
          rw [(ht'.loco l (by rw [← hcl]; exact hl)).1]
          rfl
        · exact ht'.others _ hcl
      refine ⟨⟨hs, ht, by rw [e1]; exact hr.tx, by rw [ht'.pf]; exact hr.pf, hlist, by rw [hloco]; exact hr.loco⟩, by rw [e1]; exact he, ?_, ?_⟩
      · intro m c' g1 g2 g3
        have : m = n := by rw [e1, h1] at g1; exact (Option.some.inj g1).symm
        subst this
        rw [e2] at g2 g3
        simp only [World.setParser, if_true] at g2 g3
        have : c' = c := by rw [k2 g2, hc] at g3; exact (Option.some.inj g3).symm
        subst this
        rw [hloco]
        exact hpn
      · cases t with
        | anyone => trivial
        | list =>
          have hpn : c = a.list := hpn
          subst hpn
          obtain ⟨l, hl, -⟩ := hr.list
          exact ht'.list l hl
        | engine e =>
          obtain ⟨rfl, l, hl, hle⟩ := hpn
          obtain ⟨g1, g2⟩ := ht'.loco l hl
          refine ⟨fun x hx => g2 x (by rw [hle]; intro h; exact hx (by cases h; rfl)), ?_⟩
          rw [g1]
          rfl

theorem heard_run {a : App} {t : Taker} (ops : List Op) (w v : World) (hr : Ready a w) (he : w.station.callbacks.engine.isSome = true)
    (hp : Pends a t w) (ho : ∀ op ∈ ops, Heard op) (h : w.run ops = .ok v) :
    Ready a v ∧ v.station.callbacks.engine.isSome = true ∧ Pends a t v ∧ Waited a t w v := by
  induction ops generalizing w with
  | nil => cases h; exact ⟨hr, he, hp, .refl ..⟩
  | cons op ops ih =>
    rw [World.run_cons] at h
    obtain ⟨u, h1, h2⟩ := bind_ok h
    obtain ⟨g1, g2, g3, g4⟩ := heard_step hr he hp (ho op (List.mem_cons_self ..)) h1
    obtain ⟨k1, k2, k3, k4⟩ := ih u g1 g2 g3 (fun o h => ho o (List.mem_cons_of_mem _ h)) h2
    exact ⟨k1, k2, k3, g4.trans k4⟩

/-! ## Asking -/

/-- Ending a request does nothing to other consumers than the one of the parser. -/
theorem abort_spares {a : App} {e : Nat} {w v : World} (hr : Ready a w) (hp : Pends a (.engine e) w) (h : w.step .abort = .ok v) :
    v.consumers a.list = w.consumers a.list := by
  have h : w.stationUpdate (.ok w.station.FinishCurrentConfigRequest) = .ok v := h
  unfold Station.FinishCurrentConfigRequest at h
  cases hc : w.station.callbacks.configData with
  | none => rw [hc] at h; cases h; rfl
  | some n =>
    rw [hc] at h
    obtain ⟨u, h1, h2⟩ := bind_ok (show (World.parserReset { w with station := _ } n >>= fun v => .ok v) = .ok v from h)
    cases h2
    obtain ⟨s, hs⟩ := hr.sound.parsers n
    obtain ⟨⟨q, cs⟩, h3, h4⟩ := bind_ok h1
    have h3 : (w.parsers n).reset = .ok (q, cs) := h3
    rw [reset_sinv _ s hs] at h3
    cases h3
    by_cases hproc : (w.parsers n).isProcessing = true
    · have := callConsumers_touched a.loco _ (fun x hx => (hp n x.consumer hc hproc (resetNotify_consumer _ x hx)).1) _ _ h4
      rw [this.others _ hr.ne]
      rfl
    · have : (w.parsers n).resetNotify = [] := by
        unfold StreamParser.resetNotify
        rw [if_neg]
        rintro (hh | hh) <;> exact hproc (by simp [StreamParser.isProcessing, hh])
      rw [this] at h4
      cases h4
      rfl

/-- After asking for a page. -/
theorem page_state {a : App} {w v : World} (hr : Ready a w) (he : w.station.callbacks.engine.isSome = true) (o : Byte) (h : w.run (page a o) = .ok v) :
    Ready a v ∧ v.station.callbacks.engine.isSome = true ∧ Pends a .list v ∧ Waited a .list w v := by
  obtain ⟨l0, hl0, hcb0, hlen0, hname0⟩ := hr.list
  obtain ⟨k0, hk0, hkcb0⟩ := hr.loco
  obtain ⟨v1, lg, s1, s2, s3, s4, s5, s6, s7, -⟩ := abort_ok w hr.sound hr.tidy
  have ha := s7 a.list
  rw [hl0] at ha
  obtain ⟨l1, hl1, hcb1, hlen1, -⟩ := aborted_list ha a.listEnd hcb0 hlen0 hname0
  have hk1 : v1.consumers a.loco = .loco k0 := by
    have := s7 a.loco
    rw [hk0] at this
    exact aborted_loco this
  let l3 := (l1.clearTable).setStreamOffset o
  let w3 : World := (v1.setConsumer a.list (.list l1.clearTable)).setConsumer a.list (.list l3)
  have h1 : v1.step (.clearTable a.list) = .ok (v1.setConsumer a.list (.list l1.clearTable)) := by
    simp only [World.step, hl1]
  have h2 : (v1.setConsumer a.list (.list l1.clearTable)).step (.setStreamOffset a.list o) = .ok w3 := by
    simp only [World.step, World.setConsumer, if_true]
    rfl
  have hw3 : w3.consumers = fun m => if m = a.list then .list l3 else v1.consumers m := by
    funext m
    simp only [w3, World.setConsumer]
    split <;> rfl
  have hinit : (Consumer.list l3).Initialised := by
    show l1.streamEndCallback ≠ .uninit
    rw [hcb1]
    intro h; cases h
  have hs3 : Sound w3 := ⟨s2.parsers, fun n c hc => by
    rw [hw3]
    dsimp only
    split
    · exact hinit
    · exact s2.attached n c hc⟩
  have hnone : w3.station.callbacks.configData = none := by show v1.station.callbacks.configData = none; rw [s4]
  have htx : w3.station.callbacks.tx = some a.tx := by show v1.station.callbacks.tx = _; rw [s4]; exact hr.tx
  obtain ⟨fs, hrun, -⟩ := run_list w3 a.parser a.list a.tx htx hnone o
  have hv : v = w3.requested a.parser a.list a.tx fs := by
    have : w.run (page a o) = .ok (w3.requested a.parser a.list a.tx fs) := by
      show w.run (.abort :: .clearTable a.list :: .setStreamOffset a.list o :: [.parserStart a.parser (some a.list), .requestEngineList o (some a.parser)]) = _
      rw [World.run_cons, s1]
      show v1.run _ = _
      rw [World.run_cons, h1]
      show (v1.setConsumer a.list (.list l1.clearTable)).run _ = _
      rw [World.run_cons, h2]
      exact hrun
    rw [h] at this
    injection this
  have hsound := tidy_history [.parserStart a.parser (some a.list), .requestEngineList o (some a.parser)] w3 _ s3 hs3
    ⟨by show (w3.consumers a.list).Initialised; rw [hw3]; simpa using hinit, fun _ _ => ⟨trivial, fun _ _ => trivial⟩⟩ (by
      intro op hop
      simp only [List.mem_cons, List.not_mem_nil, or_false] at hop
      rcases hop with rfl | rfl <;> rfl) hrun
  subst hv
  refine ⟨⟨hsound.2, hsound.1, htx, ?_, ⟨l3, ?_, hcb1, ?_, reset_names l1⟩, ⟨k0, ?_, hkcb0⟩⟩, ?_, ?_, ?_⟩
  · show 32 ≤ v1.pf.longBits
    rw [s6]; exact hr.pf
  · show w3.consumers a.list = _
    rw [hw3]; simp
  · show (l1.clearTable).engineInfo.length = 2
    simp [LocoListConsumer.clearTable, hlen1]
  · show w3.consumers a.loco = _
    rw [hw3]; simp only [if_neg hr.ne.symm]; exact hk1
  · show v1.station.callbacks.engine.isSome = true
    rw [s4]; exact he
  · intro n c g1 g2 g3
    have : n = a.parser := by have : some a.parser = some n := g1; exact (Option.some.inj this).symm
    subst this
    have g3 : (if a.parser = a.parser then ((w3.parsers a.parser).startStreamConsumer (some a.list)).startStream else w3.parsers a.parser).consumer = some c := g3
    rw [if_pos rfl] at g3
    have g3 : some a.list = some c := g3
    exact (Option.some.inj g3).symm
  · exact s5

/-- After asking for an engine. -/
theorem load_state {a : App} {w v : World} (hr : Ready a w) (he : w.station.callbacks.engine.isSome = true) (e : Nat) (hp : Pends a (.engine e) w)
    (m : List Byte) (hm : Readable 32 m) (hlen : (text m).length ≤ 16) (h : w.run (load a e m) = .ok v) :
    Ready a v ∧ v.station.callbacks.engine.isSome = true ∧ Pends a (.engine e) v ∧ Waited a (.engine e) w v := by
  obtain ⟨l0, hl0, hcb0, hlen0, hname0⟩ := hr.list
  obtain ⟨k0, hk0, hkcb0⟩ := hr.loco
  obtain ⟨v1, lg, s1, s2, s3, s4, s5, s6, s7, -⟩ := abort_ok w hr.sound hr.tidy
  have hlist := abort_spares hr hp s1
  have hk1 : v1.consumers a.loco = .loco k0 := by
    have := s7 a.loco
    rw [hk0] at this
    exact aborted_loco this
  obtain ⟨g, g1, g2, -, g4, g5, -⟩ := C54_setName_engine (w.engines e) m hm
  have g5' : (text g.info.name).length ≤ 16 := by
    rw [g5]
    exact Nat.le_trans (List.length_take_le' ..) hlen
  let k3 : LocoConsumer := { k0 with currentEngine := .obj e }
  let w3 : World := { v1 with engines := w.engines.set e g, consumers := fun m => if m = a.loco then .loco k3 else v1.consumers m }
  have e1 : v1.step (.setName e m) = .ok { v1 with engines := w.engines.set e g } := by
    simp only [World.step, s5, g1, bind, Except.bind]
  have e2 : ({ v1 with engines := w.engines.set e g } : World).step (.setEngine a.loco (some e)) = .ok w3 := by
    simp only [World.step, hk1]
    rfl
  have hinit3 : (Consumer.loco k3).Initialised := ⟨(by intro h; cases h), (by show k0.streamEndCallback ≠ .uninit; rw [hkcb0]; intro h; cases h)⟩
  have hc3 : w3.consumers a.loco = .loco k3 := by simp [w3]
  have hs3 : Sound w3 := sound_consumers s2 rfl (setConsumer_init v1 a.loco _ (fun _ => hinit3))
  have he3 : w3.engines e = g := by simp [w3, Engines.set]
  have hnone : w3.station.callbacks.configData = none := by show v1.station.callbacks.configData = none; rw [s4]
  have htx : w3.station.callbacks.tx = some a.tx := by show v1.station.callbacks.tx = _; rw [s4]; exact hr.tx
  obtain ⟨fs, hrun, -⟩ := run_engine w3 a.parser a.loco a.tx e htx hnone (by rw [he3]; simp [ShortInfo.isNameKnown, g2]) (by rw [he3]; exact g4)
    (by rw [he3]; exact g5')
  have hv : v = w3.requested a.parser a.loco a.tx fs := by
    have : w.run (load a e m) = .ok (w3.requested a.parser a.loco a.tx fs) := by
      show w.run (.abort :: .setName e m :: .setEngine a.loco (some e) :: [.parserStart a.parser (some a.loco), .requestEngine e (some a.parser)]) = _
      rw [World.run_cons, s1]
      show v1.run _ = _
      rw [World.run_cons, e1]
      show ({ v1 with engines := w.engines.set e g } : World).run _ = _
      rw [World.run_cons, e2]
      exact hrun
    rw [h] at this
    injection this
  have hsound := tidy_history [.parserStart a.parser (some a.loco), .requestEngine e (some a.parser)] w3 _ s3 hs3
    ⟨by show (w3.consumers a.loco).Initialised; rw [hc3]; exact hinit3, fun _ _ => ⟨trivial, fun _ _ => trivial⟩⟩ (by
      intro op hop
      simp only [List.mem_cons, List.not_mem_nil, or_false] at hop
      rcases hop with rfl | rfl <;> rfl) hrun
  subst hv
  have hl3 : w3.consumers a.list = .list l0 := by
    show (if a.list = a.loco then _ else v1.consumers a.list) = _
    rw [if_neg hr.ne, hlist, hl0]
  refine ⟨⟨hsound.2, hsound.1, htx, ?_, ⟨l0, hl3, hcb0, hlen0, hname0⟩, ⟨k3, hc3, hkcb0⟩⟩, ?_, ?_, ?_, ?_⟩
  · show 32 ≤ v1.pf.longBits
    rw [s6]; exact hr.pf
  · show v1.station.callbacks.engine.isSome = true
    rw [s4]; exact he
  · intro n c g1 g2 g3
    have : n = a.parser := by have : some a.parser = some n := g1; exact (Option.some.inj this).symm
    subst this
    have g3 : (if a.parser = a.parser then ((w3.parsers a.parser).startStreamConsumer (some a.loco)).startStream else w3.parsers a.parser).consumer = some c := g3
    rw [if_pos rfl] at g3
    have g3 : some a.loco = some c := g3
    exact ⟨(Option.some.inj g3).symm, k3, hc3, rfl⟩
  · intro x hx
    show w.engines.set e g x = _
    simp [Engines.set, hx]
  · show w3.consumers a.list = _
    rw [hl3, hl0]

end RR32
