import Verif.Spec.Trace
import Verif.Props.Printed
import Verif.Props.Output

/-! # C90: what the logging switches add -/

set_option autoImplicit false

namespace RR32

open Spec World

/-! ## Calls -/

/-- C90: in every configuration, a call that receives nothing prints at most one line, and that only if outgoing messages are logged: a
request without a name, and a request while a stream is expected or received, say that they are dropped; a turnout command is described. -/
theorem C90_calls (g : LogConfig) (w v : World) (op : Op) (ho : op.receives = false) (t : List Byte) (h : w.stepO g op = .ok (v, t)) :
    t = when g.out (match op with
      | .sendAccessory a p d pw => Station.accessoryText a p d pw
      | .requestEngine e _ => if (w.engines e).info.isNameKnown = false then str "Station::RequestEngine: No Engine Name given, dropping request.\n"
          else if w.processing = true then str "Station::RequestEngine: Request in progress, dropping request.\n" else []
      | .requestShortInfo i _ => if i.isNameKnown = false then str "Station::RequestEngine: No Engine Name given, dropping request.\n"
          else if w.processing = true then str "Station::RequestEngine: Request in progress, dropping request.\n" else []
      | _ => []) := by
  have hproc : (w.station.callbacks.configData.isSome && w.processing) = w.processing := by
    unfold World.processing
    cases w.station.callbacks.configData <;> rfl
  unfold stepO at h
  obtain ⟨t0, h0, h⟩ := bind_ok h
  have hw : when g.out [] = [] := by unfold when; split <;> rfl
  have e1 : t = t0 := by
    split at h
    · rename_i r hr
      obtain ⟨⟨s, cs⟩, h1, h⟩ := bind_ok h
      obtain ⟨⟨v', t'⟩, h2, h⟩ := bind_ok h
      cases h
      subst h1
      rw [runCallsO_text _ _ cs (stationPart_calls ho hr) _ h2, List.append_nil]
    · cases ho
    · rw [parserResetO_text _ _ _ _ h]; cases h0; rfl
    · obtain ⟨x, -, h⟩ := bind_ok h
      cases h
      rfl
  subst e1
  have req : ∀ i : ShortInfo, (if !i.isNameKnown then
      printIf g.out (.ok (str "Station::RequestEngine: No Engine Name given, dropping request.\n"))
    else if w.station.callbacks.configData.isSome && w.processing then
      printIf g.out (.ok (str "Station::RequestEngine: Request in progress, dropping request.\n"))
    else .ok []) = .ok t → t = when g.out (if i.isNameKnown = false then str "Station::RequestEngine: No Engine Name given, dropping request.\n"
          else if w.processing = true then str "Station::RequestEngine: Request in progress, dropping request.\n" else []) := by
    intro i hi
    rw [hproc] at hi
    unfold printIf at hi
    unfold when
    cases h1 : i.isNameKnown <;> cases h2 : w.processing <;> cases h3 : g.out <;> simp only [h1, h2, h3, Bool.not_true, Bool.not_false, ↓reduceIte,
      Bool.false_eq_true, Bool.true_eq_false] at hi ⊢ <;> cases hi <;> rfl
  cases op <;> try cases ho
  case requestEngine e p => exact req _ h0
  case requestShortInfo i p => exact req _ h0
  case sendAccessory a p d pw =>
    simp only [opText, printIf] at h0
    unfold when
    cases hg : g.out <;> simp only [hg] at h0 ⊢ <;> cases h0 <;> rfl
  all_goals (cases h0; rw [hw])

/-! ## Received frames -/

/-- C90: the switch for received frames adds a line with the identifier before everything else that is printed about a frame. -/
theorem C90_raw (g : LogConfig) (w : World) (f : CanFrame) :
    w.stepO { g with rawIn := true } (.handle f) =
      (w.stepO { g with rawIn := false } (.handle f)).map fun x => (x.1, f.id.printAll ++ str "\n" ++ x.2) := by
  have hr : runCallO { g with rawIn := true } = runCallO { g with rawIn := false } := rfl
  have ht : w.opText { g with rawIn := true } (.handle f) =
      (w.opText { g with rawIn := false } (.handle f)).map fun x => f.id.printAll ++ str "\n" ++ x := by
    show w.handleText _ f = (w.handleText _ f).map _
    unfold handleText
    dsimp only
    simp only [bind, printIf]
    generalize (if (g.all && f.id.getCommand == kRequestConfigData) = true then _ else _ : Res (List Byte)) = a
    generalize (if (g.all && f.id.getCommand == kConfigDataStream) = true then _ else _ : Res (List Byte)) = b
    generalize (if (g.all && f.id.getCommand == kConfigDataStream && w.processing) = true then _ else _ : Res (List Byte)) = c
    generalize w.station.packetText w.processing f = d
    cases a with
    | error e => rfl
    | ok a =>
      cases b with
      | error e => rfl
      | ok b =>
        cases c with
        | error e => rfl
        | ok c =>
          cases d with
          | error e => rfl
          | ok d => simp [Except.bind, Except.map]
  unfold stepO
  rw [ht, hr]
  show Except.bind (Except.map _ _) _ = Except.map _ (Except.bind _ _)
  cases w.opText { g with rawIn := false } (.handle f) with
  | error e => rfl
  | ok t =>
    simp only [Except.map, Except.bind, stationPart, bind]
    cases w.station.HandlePacket w.processing f with
    | error e => rfl
    | ok cs =>
      dsimp only
      cases inTurn (runCallO { g with rawIn := false }) { w with station := w.station } cs with
      | error e => rfl
      | ok x => simp

/-! ## More switches -/

/-- Two texts of the same piece of code, the second with more switches. -/
def Within (r r' : Res (List Byte)) : Prop := ∀ t t', r = .ok t → r' = .ok t' → t.Sublist t'

/-- Two outcomes of the same piece of code, the second with more switches. -/
def Adds (r r' : Res (World × List Byte)) : Prop := ∀ v t v' t', r = .ok (v, t) → r' = .ok (v', t') → v' = v ∧ t.Sublist t'

theorem within_refl (r : Res (List Byte)) : Within r r := by
  intro t t' h h'
  rw [h] at h'
  cases h'
  exact List.Sublist.refl t

theorem within_if {a b : Bool} (h : a = true → b = true) (r : Res (List Byte)) : Within (printIf a r) (printIf b r) := by
  cases a with
  | false =>
    intro t t' e _
    cases e
    exact List.nil_sublist t'
  | true => rw [h rfl]; exact within_refl _

theorem within_bind {α : Type} (x : Res α) {f f' : α → Res (List Byte)} (hf : ∀ a, Within (f a) (f' a)) : Within (x >>= f) (x >>= f') := by
  intro t t' h h'
  obtain ⟨a, h1, h2⟩ := bind_ok h
  rw [h1] at h'
  exact hf a t t' h2 h'

theorem within_append {r r' k k' : Res (List Byte)} (h1 : Within r r') (h2 : Within k k') :
    Within (do let a ← r; let b ← k; .ok (a ++ b)) (do let a ← r'; let b ← k'; .ok (a ++ b)) := by
  intro t t' h h'
  obtain ⟨a, ha, h⟩ := bind_ok h
  obtain ⟨b, hb, h⟩ := bind_ok h
  obtain ⟨a', ha', h'⟩ := bind_ok h'
  obtain ⟨b', hb', h'⟩ := bind_ok h'
  cases h
  cases h'
  exact (h1 a a' ha ha').append (h2 b b' hb hb')

section
variable {g g' : LogConfig} (hg : LogConfig.Le g g')
include hg

theorem consumerText_within (w : World) (c : ConsumerCall) : Within (w.consumerText g c) (w.consumerText g' c) := by
  unfold consumerText
  split
  · rename_i l s k v _ _
    intro t t' h h'
    obtain ⟨a, ha, h⟩ := bind_ok h
    obtain ⟨a', ha', h'⟩ := bind_ok h'
    obtain ⟨e, he, h⟩ := bind_ok h
    obtain ⟨e', he', h'⟩ := bind_ok h'
    have h1 := within_if hg.events _ a a' ha ha'
    rw [he] at he'
    cases he'
    cases e with
    | none => cases h; cases h'; exact h1
    | some n =>
      obtain ⟨b, hb, h⟩ := bind_ok h
      obtain ⟨b', hb', h'⟩ := bind_ok h'
      cases h
      cases h'
      exact h1.append (within_if hg.events _ b b' hb hb')
  · exact within_refl _
  · exact within_refl _
  · exact within_append (within_if hg.events _) (within_refl _)
  · exact within_refl _
  · exact within_refl _

theorem headText_within (p : StreamParser) (d : Data) : Within (p.headText g d) (p.headText g' d) := by
  unfold StreamParser.headText
  split
  · split
    · exact within_if hg.packets _
    · exact within_refl _
  · split
    · exact within_if hg.dump _
    · exact within_refl _
  · exact within_refl _

theorem tailText_within (p : StreamParser) (d : Data) (q : StreamParser) : Within (p.tailText g d q) (p.tailText g' d q) := by
  unfold StreamParser.tailText
  split
  · split
    · exact within_if hg.events _
    · exact within_if hg.packets _
  · exact within_refl _

omit hg in
theorem inTurn_adds {α : Type} {f f' : World → α → Res (World × List Byte)} (hf : ∀ w x, Adds (f w x) (f' w x)) (w : World) (xs : List α) :
    Adds (inTurn f w xs) (inTurn f' w xs) := by
  induction xs generalizing w with
  | nil => intro v t v' t' h h'; cases h; cases h'; exact ⟨rfl, List.Sublist.refl _⟩
  | cons x xs ih =>
    intro v t v' t' h h'
    rw [inTurn] at h h'
    obtain ⟨⟨u, a⟩, ha, h⟩ := bind_ok h
    obtain ⟨⟨u', a'⟩, ha', h'⟩ := bind_ok h'
    obtain ⟨⟨y, b⟩, hb, h⟩ := bind_ok h
    obtain ⟨⟨y', b'⟩, hb', h'⟩ := bind_ok h'
    cases h
    cases h'
    obtain ⟨rfl, h1⟩ := hf w x u a u' a' ha ha'
    obtain ⟨rfl, h2⟩ := ih u' v b v' b' hb hb'
    exact ⟨rfl, h1.append h2⟩

theorem callConsumerO_adds (w : World) (c : ConsumerCall) : Adds (callConsumerO g w c) (callConsumerO g' w c) := by
  intro v t v' t' h h'
  obtain ⟨a, ha, h⟩ := bind_ok h
  obtain ⟨a', ha', h'⟩ := bind_ok h'
  obtain ⟨x, hx, h⟩ := bind_ok h
  obtain ⟨x', hx', h'⟩ := bind_ok h'
  cases h
  cases h'
  rw [hx] at hx'
  cases hx'
  exact ⟨rfl, consumerText_within hg w c _ _ ha ha'⟩

theorem parserAddO_adds (w : World) (n : Nat) (d : Data) : Adds (w.parserAddO g n d) (w.parserAddO g' n d) := by
  intro v t v' t' h h'
  obtain ⟨a, ha, h⟩ := bind_ok h
  obtain ⟨a', ha', h'⟩ := bind_ok h'
  obtain ⟨⟨q, cs⟩, hq, h⟩ := bind_ok h
  obtain ⟨⟨q', cs'⟩, hq', h'⟩ := bind_ok h'
  rw [hq] at hq'
  cases hq'
  obtain ⟨⟨x, b⟩, hb, h⟩ := bind_ok h
  obtain ⟨⟨x', b'⟩, hb', h'⟩ := bind_ok h'
  obtain ⟨c, hc, h⟩ := bind_ok h
  obtain ⟨c', hc', h'⟩ := bind_ok h'
  obtain ⟨⟨y, e⟩, he, h⟩ := bind_ok h
  obtain ⟨⟨y', e'⟩, he', h'⟩ := bind_ok h'
  cases h
  cases h'
  obtain ⟨rfl, h2⟩ := inTurn_adds (callConsumerO_adds hg) _ _ _ _ _ _ hb hb'
  obtain ⟨rfl, h4⟩ := inTurn_adds (callConsumerO_adds hg) _ _ _ _ _ _ he he'
  exact ⟨rfl, ((((headText_within hg _ _ _ _ ha ha').append h2).append (tailText_within hg _ _ _ _ _ hc hc')).append h4)⟩

theorem parserResetO_adds (w : World) (n : Nat) : Adds (w.parserResetO g n) (w.parserResetO g' n) := by
  intro v t v' t' h h'
  obtain ⟨⟨q, cs⟩, hq, h⟩ := bind_ok h
  obtain ⟨⟨q', cs'⟩, hq', h'⟩ := bind_ok h'
  rw [hq] at hq'
  cases hq'
  exact inTurn_adds (callConsumerO_adds hg) _ _ _ _ _ _ h h'

theorem runCallO_adds (w : World) (c : Call) : Adds (runCallO g w c) (runCallO g' w c) := by
  cases c with
  | cfgAdd n d => exact parserAddO_adds hg w n d
  | cfgReset n => exact parserResetO_adds hg w n
  | _ => intro v t v' t' h h'; cases h; cases h'; exact ⟨rfl, List.Sublist.refl _⟩

theorem handleText_within (w : World) (f : CanFrame) : Within (w.handleText g f) (w.handleText g' f) := by
  have both : ∀ {b : Bool}, (g.all && b) = true → (g'.all && b) = true := by
    intro b h
    simp only [Bool.and_eq_true] at h ⊢
    exact ⟨hg.all h.1, h.2⟩
  have both' : ∀ {b c : Bool}, (g.all && b && c) = true → (g'.all && b && c) = true := by
    intro b c h
    simp only [Bool.and_eq_true] at h ⊢
    exact ⟨⟨hg.all h.1.1, h.1.2⟩, h.2⟩
  intro t t' h h'
  obtain ⟨a, ha, h⟩ := bind_ok h
  obtain ⟨a', ha', h'⟩ := bind_ok h'
  obtain ⟨b, hb, h⟩ := bind_ok h
  obtain ⟨b', hb', h'⟩ := bind_ok h'
  obtain ⟨c, hc, h⟩ := bind_ok h
  obtain ⟨c', hc', h'⟩ := bind_ok h'
  obtain ⟨d, hd, h⟩ := bind_ok h
  obtain ⟨d', hd', h'⟩ := bind_ok h'
  obtain ⟨e, he, h⟩ := bind_ok h
  obtain ⟨e', he', h'⟩ := bind_ok h'
  cases h
  cases h'
  rw [he] at he'
  cases he'
  exact ((((within_if hg.rawIn _ _ _ ha ha').append (within_if both _ _ _ hb hb')).append (within_if both _ _ _ hc hc')).append
    (within_if both' _ _ _ hd hd')).append (List.Sublist.refl _)

theorem opText_within (w : World) (op : Op) : Within (w.opText g op) (w.opText g' op) := by
  have req : ∀ i : ShortInfo, Within (if !i.isNameKnown then
      printIf g.out (.ok (str "Station::RequestEngine: No Engine Name given, dropping request.\n"))
    else if w.station.callbacks.configData.isSome && w.processing then
      printIf g.out (.ok (str "Station::RequestEngine: Request in progress, dropping request.\n"))
    else .ok []) (if !i.isNameKnown then
      printIf g'.out (.ok (str "Station::RequestEngine: No Engine Name given, dropping request.\n"))
    else if w.station.callbacks.configData.isSome && w.processing then
      printIf g'.out (.ok (str "Station::RequestEngine: Request in progress, dropping request.\n"))
    else .ok []) := by
    intro i
    split
    · exact within_if hg.out _
    · split
      · exact within_if hg.out _
      · exact within_refl _
  cases op with
  | handle f => exact handleText_within hg w f
  | requestEngine e p => exact req _
  | requestShortInfo i p => exact req _
  | sendAccessory a p d pw => exact within_if hg.out _
  | _ => exact within_refl _

theorem stepO_adds (w : World) (op : Op) : Adds (w.stepO g op) (w.stepO g' op) := by
  intro v t v' t' h h'
  obtain ⟨a, ha, h⟩ := bind_ok h
  obtain ⟨a', ha', h'⟩ := bind_ok h'
  have h1 := opText_within hg w op _ _ ha ha'
  cases hp : w.stationPart op with
  | some r =>
    simp only [hp] at h h'
    obtain ⟨⟨s, cs⟩, hr, h⟩ := bind_ok h
    obtain ⟨⟨s', cs'⟩, hr', h'⟩ := bind_ok h'
    rw [hr] at hr'
    cases hr'
    obtain ⟨⟨x, b⟩, hb, h⟩ := bind_ok h
    obtain ⟨⟨x', b'⟩, hb', h'⟩ := bind_ok h'
    cases h
    cases h'
    obtain ⟨rfl, h2⟩ := inTurn_adds (runCallO_adds hg) _ _ _ _ _ _ hb hb'
    exact ⟨rfl, h1.append h2⟩
  | none =>
    simp only [hp] at h h'
    cases op with
    | parserAdd n d => exact parserAddO_adds hg w n d v t v' t' h h'
    | parserReset n => exact parserResetO_adds hg w n v t v' t' h h'
    | _ =>
      obtain ⟨x, hx, h⟩ := bind_ok h
      obtain ⟨x', hx', h'⟩ := bind_ok h'
      cases h
      cases h'
      rw [hx] at hx'
      cases hx'
      exact ⟨rfl, h1⟩

/-- C90: more switches only add text. What a history prints with some switches is printed in the same order with more of them, and the
program does the same. (With more switches it can fail where it did not, C83.) -/
theorem C90_more (w v v' : World) (ops : List Op) (t t' : List Byte) (h : w.runO g ops = .ok (v, t)) (h' : w.runO g' ops = .ok (v', t')) :
    v' = v ∧ t.Sublist t' := inTurn_adds (stepO_adds hg) w ops v t v' t' h h'

end

/-! ## The progress of a stream -/

namespace World

/-- A frame of a stream at a station whose parser waits: the text of the station, then that of the parser. -/
theorem handleO_stream (g : LogConfig) (w : World) (n : Nat) (hn : w.station.callbacks.configData = some n) (f : CanFrame) (hf : IsStreamFrame f)
    (hp : (w.parsers n).isProcessing = true) :
    w.stepO g (.handle f) = (w.parserAddO g n f.data).map fun x => (x.1, arrival g f ++ x.2) := by
  have hp : w.processing = true := by unfold World.processing; rw [hn]; exact hp
  have hc : f.id.getCommand = kConfigDataStream := (getCommand_iff f _).mpr hf.command
  have hneed : needsEngine f = false := by simp [needsEngine, hf.command]
  have htext : w.opText g (.handle f) = .ok (arrival g f) := by
    show w.handleText g f = _
    unfold handleText
    have : w.station.packetText w.processing f = .ok [] := by
      unfold Station.packetText Station.configDataText
      rw [hc, hp, hn]
      rfl
    rw [this]
    unfold arrival Data.printAsHex Data.printAsText
    rw [printed_eq f.data hf.dlc, hc, hp]
    simp only [printIf, when, show (kConfigDataStream == kRequestConfigData) = false by decide, show (kConfigDataStream == kConfigDataStream) = true by decide,
      Bool.and_false, Bool.and_true, bind, Except.bind, Bool.false_eq_true, ↓reduceIte]
    cases g.rawIn <;> cases g.all <;> simp
  have hcalls : w.stationPart (.handle f) = some (.ok (w.station, [.cfgAdd n f.data])) := by
    simp only [stationPart, HandlePacket_eq, hneed]
    rw [if_neg (by simp), if_neg (by have := hf.dlc; omega)]
    have hr : reaction w.station.callbacks w.processing f = [.cfgAdd n f.data] := by
      simp only [reaction, hf.command, toward, hn, hp]
      rfl
    rw [hr]
    rfl
  unfold stepO
  rw [htext, hcalls]
  simp only [bind, Except.bind, inTurn, runCallO]
  cases w.parserAddO g n f.data with
  | error e => rfl
  | ok x => simp [Except.map]

/-- Consumers of the application print nothing here, and take everything. -/
theorem apps_text (g : LogConfig) (w : World) (cs : List ConsumerCall) (h : ∀ c ∈ cs, w.consumers c.consumer = .app) :
    ∃ u, inTurn (callConsumerO g) w cs = .ok (u, []) ∧ u.station = w.station ∧ u.parsers = w.parsers ∧ u.consumers = w.consumers := by
  induction cs generalizing w with
  | nil => exact ⟨w, rfl, rfl, rfl, rfl⟩
  | cons c cs ih =>
    have h1 : callConsumerO g w c = .ok (w.logAll [.consumer c], []) := by
      have h0 := h c (List.mem_cons_self ..)
      have h1 : (w.logAll [.consumer c]).consumers c.consumer = .app := h0
      unfold callConsumerO consumerText callConsumer
      simp only [h0, h1]
      rfl
    obtain ⟨u, h2, h3, h4, h5⟩ := ih (w.logAll [.consumer c]) (fun x hx => h x (List.mem_cons_of_mem _ hx))
    refine ⟨u, ?_, h3, h4, h5⟩
    rw [inTurn, h1]
    simp only [bind, Except.bind, h2, List.append_nil]

/-- A packet for a parser with a consumer of the application. -/
theorem parserAddO_app (g : LogConfig) (w : World) (n : Nat) (d : Data) (q : StreamParser) (cs : List ConsumerCall)
    (hq : (w.parsers n).addMessage d = .ok (q, cs)) (h : ∀ c ∈ cs, w.consumers c.consumer = .app) (a b : List Byte)
    (ha : (w.parsers n).headText g d = .ok a) (hb : (w.parsers n).tailText g d q = .ok b) :
    ∃ u, w.parserAddO g n d = .ok (u, a ++ b) ∧ u.station = w.station ∧ u.parsers n = q ∧ u.consumers = w.consumers := by
  obtain ⟨u, h1, h2, h3, h4⟩ := apps_text g (w.setParser n q) (cs.filter (·.isEntry)) (fun c hc => h c (List.mem_of_mem_filter hc))
  obtain ⟨v, k1, k2, k3, k4⟩ := apps_text g u (cs.filter (!·.isEntry)) (fun c hc => by rw [h4]; exact h c (List.mem_of_mem_filter hc))
  refine ⟨v, ?_, by rw [k2, h2]; rfl, by rw [k3, h3, World.setParser_get], by rw [k4, h4]; rfl⟩
  unfold parserAddO
  simp only [bind, Except.bind, ha, hq, h1, hb, k1, List.append_nil]

end World

theorem intText_small {n : Nat} (h : n < 2 ^ 31) : intText (BitVec.ofNat 32 n) = decText n := by
  unfold intText
  rw [BitVec.toNat_ofNat, Nat.mod_eq_of_lt (by omega), if_pos h]

theorem payload_one (d : Data) : payload [d] = packetBytes d := by
  rw [payload_cons, payload_nil, List.append_nil]

theorem data_trace (g : LogConfig) (crc : U16) (n : Nat) (fs : List CanFrame) (hne : fs ≠ []) (hf : ∀ f ∈ fs, IsStreamFrame f)
    (hd : AreData (fs.map (·.data))) (hsmall : 8 * fs.length < 2 ^ 31) : ∀ (w : World) (s : Reader) (got : List Byte),
    w.station.callbacks.configData = some n → SInv (w.parsers n) s → (w.parsers n).state = .WAITING_DATA_PACKET →
    (w.parsers n).remaining.toNat = 8 * fs.length →
    (w.parsers n).crc = some (got.foldl Crc.updateCrc (Crc.reset.loadReference crc)) →
    (∀ c, (w.parsers n).consumer = some c → w.consumers c = .app) →
    ∃ u t, w.runO g (fs.map .handle) = .ok (u, t) ∧ Trace g crc got fs t := by
  induction fs with
  | nil => exact absurd rfl hne
  | cons f fs ih =>
    intro w s got hn h hs hlen hcrc happ
    have hdlc : f.data.dlc = 8#8 := BitVec.eq_of_toNat_eq (hd f.data (List.mem_cons_self ..))
    obtain ⟨c, q, calls, hc, h1, h2, h3, h4, h5, h6, -, h7⟩ := data_step (w.parsers n) s h hs f.data hdlc
    rw [hcrc] at hc
    cases hc
    rw [← List.foldl_append, ← payload_one] at h4 h6
    have hrem : q.remaining = BitVec.ofNat 32 (8 * fs.length) := by
      apply BitVec.eq_of_toNat_eq
      rw [h3, BitVec.toNat_sub, hlen]
      simp only [BitVec.toNat_ofNat, List.length_cons] at hsmall ⊢
      omega
    have hproc : (w.parsers n).isProcessing = true := by unfold StreamParser.isProcessing; rw [hs]; rfl
    have hhead : (w.parsers n).headText g f.data = .ok (when g.dump (payload [f.data])) := by
      unfold StreamParser.headText
      rw [hs]
      dsimp only
      rw [if_pos hdlc]
      unfold printIf when Data.printAsText
      rw [printed_eq f.data (by rw [hdlc]; decide), hdlc]
      cases g.dump <;> rfl
    have hgot := C29_getters (got ++ payload [f.data]) crc
    generalize hacc : (got ++ payload [f.data]).foldl Crc.updateCrc (Crc.reset.loadReference crc) = acc at *
    have hcalls : ∀ x ∈ calls, w.consumers x.consumer = .app := fun x hx => happ _ (h7 x hx)
    have hnx : ∃ b, (w.parsers n).tailText g f.data q = .ok b ∧
        ((fs = [] ∧ ((acc.accumulator = crc ∧ b = when g.events (str "Stream complete!\n")) ∨
          (acc.accumulator ≠ crc ∧ b = when g.events (str "CRC Error - Stream aborted. CRC requested: " ++ hexZeros false 4 crc.toNat ++
            str ", CRC actual: " ++ hexZeros false 4 acc.accumulator.toNat ++ str ".\n")))) ∨
        (fs ≠ [] ∧ b = when g.packets (str "Stream continues. Bytes remaining: " ++ decText (8 * fs.length) ++ str ", Current CRC: " ++
          hexZeros false 4 acc.accumulator.toNat ++ str "\n"))) := by
      unfold StreamParser.tailText
      rw [if_pos ⟨hs, hdlc⟩, hrem]
      have href : acc.reference = crc := hgot.2
      have hget : q.getCrc = .ok acc := by unfold StreamParser.getCrc; rw [h4]
      by_cases hfs : fs = []
      · subst hfs
        rw [if_pos (show BitVec.ofNat 32 (8 * ([] : List CanFrame).length) = 0#32 from rfl)]
        simp only [hget]
        by_cases hv : acc.accumulator = crc
        · refine ⟨_, ?_, Or.inl ⟨trivial, Or.inl ⟨hv, rfl⟩⟩⟩
          unfold printIf when
          simp only [bind, Except.bind, Crc.isCrcValid, href, hv, beq_self_eq_true, ↓reduceIte]
          cases g.events <;> rfl
        · refine ⟨_, ?_, Or.inl ⟨trivial, Or.inr ⟨hv, rfl⟩⟩⟩
          unfold printIf when
          simp only [bind, Except.bind, Crc.isCrcValid, href, beq_eq_false_iff_ne.mpr hv, Bool.false_eq_true, ↓reduceIte]
          cases g.events <;> rfl
      · have hpos : 0 < fs.length := List.length_pos_of_ne_nil hfs
        rw [if_neg]
        · simp only [hget]
          rw [intText_small (by rw [List.length_cons] at hsmall; omega)]
          refine ⟨_, ?_, Or.inr ⟨hfs, rfl⟩⟩
          unfold printIf when
          simp only [bind, Except.bind]
          cases g.packets <;> rfl
        · intro e
          have := congrArg BitVec.toNat e
          rw [BitVec.toNat_ofNat, Nat.mod_eq_of_lt (by rw [List.length_cons] at hsmall; omega)] at this
          simp only [BitVec.toNat_ofNat] at this
          omega
    obtain ⟨b, hb, hcase⟩ := hnx
    obtain ⟨u, k1, k2, k3, k4⟩ := parserAddO_app g w n f.data q calls h1 hcalls _ b hhead hb
    have hstep : w.stepO g (.handle f) = .ok (u, arrival g f ++ (when g.dump (payload [f.data]) ++ b)) := by
      rw [handleO_stream g w n hn f (hf f (List.mem_cons_self ..)) hproc, k1]
      rfl
    rcases hcase with ⟨rfl, ⟨hv, rfl⟩ | ⟨hv, rfl⟩⟩ | ⟨hfs, rfl⟩
    · refine ⟨u, _, ?_, .complete got f ?_⟩
      · simp only [List.map_cons, List.map_nil, runO, inTurn, hstep, bind, Except.bind, List.append_nil, List.append_assoc]
      · rw [← hv]; exact hgot.1
    · refine ⟨u, _, ?_, .wrong got f acc.accumulator hgot.1 hv⟩
      simp only [List.map_cons, List.map_nil, runO, inTurn, hstep, bind, Except.bind, List.append_nil, List.append_assoc]
    · have hlen' : q.remaining.toNat = 8 * fs.length := by
        rw [hrem, BitVec.toNat_ofNat, Nat.mod_eq_of_lt (by rw [List.length_cons] at hsmall; omega)]
      have hpos : 0 < fs.length := List.length_pos_of_ne_nil hfs
      have hnz : q.remaining ≠ 0#32 := by
        intro e
        rw [e, show (0#32).toNat = 0 from rfl] at hlen'
        omega
      obtain ⟨v, t, j1, j2⟩ := ih hfs (fun x hx => hf x (List.mem_cons_of_mem _ hx)) (fun x hx => hd x (List.mem_cons_of_mem _ hx))
        (by rw [List.length_cons] at hsmall; omega) u _ (got ++ payload [f.data]) (by rw [k2]; exact hn) (by rw [k3]; exact h2)
        (by rw [k3, h6, endState, if_neg hnz]) (by rw [k3]; exact hlen') (by rw [k3, h4, hacc])
        (by rw [k3, h5, k4]; exact happ)
      refine ⟨v, _, ?_, .next got f fs acc.accumulator t hfs hgot.1 j2⟩
      rw [runO] at j1
      simp only [List.map_cons, runO, inTurn, hstep, j1, bind, Except.bind, List.append_assoc]

/-- C90: what is printed about a stream at a station whose parser was just started, besides what the consumer prints: with each frame what
the switches for received frames and for everything ask for, with the first frame the announced length and checksum, with each data frame its
data, how many bytes are missing and the checksum of the data so far, and with the last frame whether the stream is complete or, with both
checksums, wrong. -/
theorem C90_progress (g : LogConfig) (v : World) (h : Sound v) (n : Nat) (hn : v.station.callbacks.configData = some n)
    (hv : v.parsers n = (v.parsers n).startStream) (happ : ∀ c, (v.parsers n).consumer = some c → v.consumers c = .app)
    (first : CanFrame) (rest : List CanFrame) (hfirst : IsStreamFrame first) (hrest : ∀ f ∈ rest, IsStreamFrame f)
    (h1 : IsFirst first.data) (hd : AreData (rest.map (·.data))) (hne : rest ≠ []) (hlen : announcedLength first.data = 8 * rest.length)
    (hsmall : 8 * rest.length < 2 ^ 31) :
    ∃ u t, v.runO g ((first :: rest).map .handle) = .ok (u, announcement g first ++ t) ∧
      Trace g (announcedCrc first.data) [] rest t := by
  obtain ⟨s, hs⟩ := h.parsers n
  have hstate : (v.parsers n).state = .WAITING_FIRST_PACKET := by rw [hv]; rfl
  have hcrc : (v.parsers n).crc = some Crc.reset := by rw [hv]; rfl
  have hpos : 0 < rest.length := List.length_pos_of_ne_nil hne
  obtain ⟨c, hc, hadd⟩ := first_step (v.parsers n) s hs hstate first.data h1
  rw [hcrc] at hc
  cases hc
  rw [if_neg (by omega), hlen] at hadd
  have hdlc : first.data.dlc = 6#8 ∨ first.data.dlc = 7#8 := by
    rcases h1 with h | h
    · exact Or.inl (BitVec.eq_of_toNat_eq h)
    · exact Or.inr (BitVec.eq_of_toNat_eq h)
  have hhead : (v.parsers n).headText g first.data = .ok (when g.packets (str " Stream length: " ++ decText (announcedLength first.data) ++
      str " Bytes. CRC requested: " ++ hexZeros false 4 (announcedCrc first.data).toNat ++ str " CRC actual: 0xffff.\n" ++
      when (first.data.dlc == 7#8) (str "Compressed Data!\n"))) := by
    unfold StreamParser.headText
    rw [hstate]
    dsimp only
    have hl : intText (StreamParser.firstLength first.data) = decText (announcedLength first.data) := by
      rw [← intText_small (by omega), ← firstLength_eq, BitVec.ofNat_toNat, BitVec.setWidth_eq]
    have hx : str " CRC actual: " ++ hexZeros false 4 Crc.reset.accumulator.toNat ++ str ".\n" = str " CRC actual: 0xffff.\n" := by decide +kernel
    have hg : (v.parsers n).getCrc = .ok Crc.reset := by unfold StreamParser.getCrc; rw [hcrc]
    rw [if_pos hdlc, hg, hl, firstCrc_eq, ← hx]
    unfold printIf when
    simp only [bind, Except.bind, beq_iff_eq, List.append_assoc]
    cases g.packets <;> rfl
  obtain ⟨u, k1, k2, k3, k4⟩ := parserAddO_app g v n first.data _ [] hadd (by simp) _ [] hhead
    (by unfold StreamParser.tailText; rw [if_neg (by rw [hstate]; simp)])
  have hstep : v.stepO g (.handle first) = .ok (u, announcement g first) := by
    rw [handleO_stream g v n hn first hfirst (by unfold StreamParser.isProcessing; rw [hstate]; rfl), k1, List.append_nil]
    rfl
  obtain ⟨z, t, j1, j2⟩ := data_trace g (announcedCrc first.data) n rest hne hrest hd hsmall u s [] (by rw [k2]; exact hn)
    (by rw [k3]; exact ⟨hs.text, by intro h; cases h⟩) (by rw [k3])
    (by rw [k3]; show (BitVec.ofNat 32 _).toNat = _; rw [BitVec.toNat_ofNat, Nat.mod_eq_of_lt (by omega)]) (by rw [k3]; rfl)
    (by rw [k3, k4]; exact happ)
  refine ⟨z, t, ?_, j2⟩
  rw [runO] at j1
  simp only [List.map_cons, runO, inTurn, hstep, j1, bind, Except.bind]

/-- C90: the same for a station that asks for a file with a parser that is not registered, for a consumer of the application. -/
theorem C90_download (g : LogConfig) (w : World) (h : Sound w) (tx : Nat) (htx : w.station.callbacks.tx = some tx) (n c : Nat)
    (hc : w.consumers c = .app) (hreg : w.station.callbacks.configData ≠ some n) (op : Op) (hr : Requests w n op)
    (first : CanFrame) (rest : List CanFrame) (hfirst : IsStreamFrame first) (hrest : ∀ f ∈ rest, IsStreamFrame f)
    (h1 : IsFirst first.data) (hd : AreData (rest.map (·.data))) (hne : rest ≠ []) (hlen : announcedLength first.data = 8 * rest.length)
    (hsmall : 8 * rest.length < 2 ^ 31) :
    ∃ v u t, w.run [.parserStart n (some c), op] = .ok v ∧
      v.runO g ((first :: rest).map .handle) = .ok (u, announcement g first ++ t) ∧ Trace g (announcedCrc first.data) [] rest t := by
  have hi : (w.consumers c).Initialised := by rw [hc]; trivial
  have hs1 := (C58_step w h (.parserStart n (some c)) hi).2 _ rfl
  have hr' : Requests (w.setParser n ((w.parsers n).startStreamConsumer (some c))) n op := by
    have hp : (w.setParser n ((w.parsers n).startStreamConsumer (some c))).processing = w.processing := by
      unfold World.processing
      show (match w.station.callbacks.configData with | none => false | some n' => _) = _
      cases hc : w.station.callbacks.configData with
      | none => rfl
      | some m =>
        simp only [World.setParser]
        rw [if_neg (fun e => hreg (by rw [hc, e]))]
    cases hr with
    | engineList o => exact .engineList o
    | engine e hk ht hp' => exact .engine e hk ht (by rw [hp]; exact hp')
    | shortInfo i hk ht hp' => exact .shortInfo i hk ht (by rw [hp]; exact hp')
  obtain ⟨v, a1, a2, a3, a4, a5, a6, a7, -⟩ := hr'.effect hs1 (show _ = some tx from htx)
  have hnew : v.parsers n = ((w.parsers n).startStreamConsumer (some c)).startStream := by
    rw [a4, if_neg (show ¬((w.setParser n ((w.parsers n).startStreamConsumer (some c))).station.callbacks.configData = some n) from hreg),
      World.setParser_get]
  have happ : v.consumers c = .app := by
    rcases a7 c with h | ⟨l, h, -⟩
    · rw [h]; exact hc
    · rw [show (w.setParser n ((w.parsers n).startStreamConsumer (some c))).consumers c = w.consumers c from rfl, hc] at h; cases h
  obtain ⟨u, t, k1, k2⟩ := C90_progress g v a2 n (by rw [a3]) (by rw [hnew]; rfl)
    (by intro c' hc'; rw [hnew] at hc'; cases hc'; exact happ) first rest hfirst hrest h1 hd hne hlen hsmall
  refine ⟨v, u, t, ?_, k1, k2⟩
  rw [World.run_cons]
  show (World.step (w.setParser n ((w.parsers n).startStreamConsumer (some c))) op).bind _ = _
  rw [a1]
  rfl

/-! ## Entries -/

theorem entryText_line (head : String) (e : Entry) (t : List Byte) (h : entryText head (ofc 11 e.sect) (ofc 11 e.key) (ofc 26 e.value) = .ok t) :
    t = entryLine head e := by
  unfold entryText at h
  obtain ⟨a, ha, h⟩ := bind_ok h
  obtain ⟨b, hb, h⟩ := bind_ok h
  obtain ⟨c, hc, h⟩ := bind_ok h
  cases h
  have ea := ((cstr_iff _ _).mp ha).2
  have eb := ((cstr_iff _ _).mp hb).2
  have ec := ((cstr_iff _ _).mp hc).2
  rw [text_ofc] at ea eb ec
  subst ea eb ec
  rfl

theorem settingText_line (e : Entry) (he : e.Fits) : LocoConsumer.settingText (ofc 11 e.sect) (ofc 11 e.key) = .ok (settingLine e) := by
  obtain ⟨n1, n2, n3, n4, -⟩ := noNul_names
  have m1 : strncmpEq (ofc 11 e.sect).len kEngineResult (ofc 11 e.sect).mem = .ok (decide (Matches (str "lokomotive") e.sect)) :=
    strncmp_expected 11 e.sect _ he.sect n1
  have m2 : strncmpEq (ofc 11 e.key).len LocoConsumer.kEngineKeyUid (ofc 11 e.key).mem = .ok (decide (Matches (str "uid") e.key)) :=
    strncmp_expected 11 e.key _ he.key n2
  have m3 : strncmpEq (ofc 11 e.key).len LocoConsumer.kEngineKeyProtocol (ofc 11 e.key).mem = .ok (decide (Matches (str "typ") e.key)) :=
    strncmp_expected 11 e.key _ he.key n3
  have m4 : strncmpEq (ofc 11 e.key).len LocoConsumer.kEngineKeyAddress (ofc 11 e.key).mem = .ok (decide (Matches (str "adresse") e.key)) :=
    strncmp_expected 11 e.key _ he.key n4
  unfold LocoConsumer.settingText settingLine
  simp only [m1, m2, m3, m4, bind, Except.bind, SetsUid, SetsProtocol, SetsAddress, IsLoco]
  by_cases h1 : Matches (str "lokomotive") e.sect <;> by_cases h2 : Matches (str "uid") e.key <;> by_cases h3 : Matches (str "typ") e.key <;>
    by_cases h4 : Matches (str "adresse") e.key <;> simp [h1, h2, h3, h4]

/-- C90: a consumer for an engine that is given an entry prints the entry and what it sets with it, if events are logged. -/
theorem C90_engine_entry (g : LogConfig) (w v : World) (c n : Nat) (l : LocoConsumer) (hc : w.consumers c = .loco l) (hn : l.currentEngine = .obj n)
    (e : Entry) (he : e.Fits) (t : List Byte) (h : callConsumerO g w (callOf (c, .entry e)) = .ok (v, t)) :
    t = when g.events (entryLine "EngineControl" e ++ settingLine e) := by
  unfold callConsumerO at h
  obtain ⟨x, h1, h⟩ := bind_ok h
  obtain ⟨y, -, h⟩ := bind_ok h
  cases h
  unfold consumerText at h1
  simp only [callOf, hc] at h1
  obtain ⟨a, ha, h1⟩ := bind_ok h1
  rw [hn] at h1
  obtain ⟨b, hb, h1⟩ := bind_ok h1
  cases hb
  dsimp only at h1
  rw [settingText_line e he] at h1
  obtain ⟨d, hd, h1⟩ := bind_ok h1
  cases h1
  unfold printIf at ha hd
  unfold when
  cases hg : g.events
  · simp only [hg, Bool.false_eq_true, ↓reduceIte] at ha hd
    cases ha; cases hd; rfl
  · simp only [hg, ↓reduceIte] at ha hd
    cases hd
    rw [entryText_line _ _ _ ha]
    rfl

/-- C90: a consumer for engines that has no engine prints the entry it is given, if events are logged, and says nothing about the engine. -/
theorem C90_no_engine_entry (g : LogConfig) (w v : World) (c : Nat) (l : LocoConsumer) (hc : w.consumers c = .loco l)
    (hn : l.currentEngine = .null) (e : Entry) (t : List Byte) (h : callConsumerO g w (callOf (c, .entry e)) = .ok (v, t)) :
    t = when g.events (entryLine "EngineControl" e) := by
  unfold callConsumerO at h
  obtain ⟨x, h1, h⟩ := bind_ok h
  obtain ⟨y, -, h⟩ := bind_ok h
  cases h
  unfold consumerText at h1
  simp only [callOf, hc] at h1
  obtain ⟨a, ha, h1⟩ := bind_ok h1
  rw [hn] at h1
  obtain ⟨b, hb, h1⟩ := bind_ok h1
  cases hb
  cases h1
  unfold printIf at ha
  unfold when
  cases hg : g.events
  · simp only [hg, Bool.false_eq_true, ↓reduceIte] at ha
    cases ha; rfl
  · simp only [hg, ↓reduceIte] at ha
    rw [entryText_line _ _ _ ha]
    rfl

/-- C90: at the end of a file a consumer for engines prints its engine, as the end leaves it, whatever is logged. -/
theorem C90_engine_complete (g : LogConfig) (w v : World) (c n : Nat) (l : LocoConsumer) (hc : w.consumers c = .loco l)
    (hn : l.currentEngine = .obj n) (t : List Byte) (h : callConsumerO g w (callOf (c, .complete)) = .ok (v, t)) :
    ∃ x, (v.engines n).printText = .ok x ∧ t = str "Downloaded Engine: " ++ x ++ str "\n" := by
  unfold callConsumerO at h
  obtain ⟨x, h1, h⟩ := bind_ok h
  obtain ⟨y, h2, h⟩ := bind_ok h
  cases h
  unfold consumerText at h1
  simp only [callOf, hc] at h1
  rw [hn] at h1
  obtain ⟨b, hb, h1⟩ := bind_ok h1
  cases hb
  obtain ⟨b, hb, h1⟩ := bind_ok h1
  cases h1
  refine ⟨b, ?_, rfl⟩
  unfold callConsumer at h2
  simp only [callOf, logAll, hc] at h2
  obtain ⟨⟨es, ends⟩, h3, h2⟩ := bind_ok h2
  cases h2
  unfold LocoConsumer.setStreamComplete at h3
  rw [hn] at h3
  obtain ⟨d, hd, h3⟩ := bind_ok h3
  cases hd
  obtain ⟨d, hd, h3⟩ := bind_ok h3
  obtain ⟨d, hd, h3⟩ := bind_ok h3
  cases h3
  simpa [Engines.set] using hb

/-- C90: no other end is printed: not by a consumer that has no engine, not by the consumer for the list, and not when a file is broken off. -/
theorem C90_silent_end (g : LogConfig) (w v : World) (c : Nat) (x : Notice) (hx : x = .complete ∨ x = .aborted)
    (hq : x = .aborted ∨ ∀ l, w.consumers c = .loco l → l.currentEngine = .null)
    (t : List Byte) (h : callConsumerO g w (callOf (c, x)) = .ok (v, t)) : t = [] := by
  unfold callConsumerO at h
  obtain ⟨y, h1, h⟩ := bind_ok h
  obtain ⟨z, -, h⟩ := bind_ok h
  cases h
  unfold consumerText at h1
  rcases hx with rfl | rfl
  · have hq := hq.resolve_left (by simp)
    cases hc : w.consumers c with
    | app => simp only [callOf, hc] at h1; cases h1; rfl
    | list l => simp only [callOf, hc] at h1; cases h1; rfl
    | loco l =>
      simp only [callOf, hc] at h1
      rw [hq l hc] at h1
      obtain ⟨b, hb, h1⟩ := bind_ok h1
      cases hb
      cases h1
      rfl
  · cases hc : w.consumers c <;> (simp only [callOf, hc] at h1; cases h1; rfl)

/-- C90: the consumer for the list that is given an entry prints the entry, if events are logged, and then what it prints in any case. -/
theorem C90_list_entry (g : LogConfig) (w v : World) (c : Nat) (l : LocoListConsumer) (hc : w.consumers c = .list l) (names : List (List Byte))
    (hs : Shows l names) (e : Entry) (he : ListSafe e) (t : List Byte) (h : callConsumerO g w (callOf (c, .entry e)) = .ok (v, t)) :
    t = when g.events (entryLine "EngineBrowser" e) ++ listLine names.length e := by
  unfold callConsumerO at h
  obtain ⟨x, h1, h⟩ := bind_ok h
  obtain ⟨y, -, h⟩ := bind_ok h
  cases h
  unfold consumerText at h1
  simp only [callOf, hc] at h1
  obtain ⟨a, ha, h1⟩ := bind_ok h1
  rw [consumeText_line l names hs names.length (by have := hs.1; omega) e he] at h1
  cases h1
  unfold printIf at ha
  unfold when
  cases hg : g.events
  · simp only [hg, Bool.false_eq_true, ↓reduceIte] at ha
    cases ha; rfl
  · simp only [hg, ↓reduceIte] at ha
    rw [entryText_line _ _ _ ha]
    rfl

/-! ## Cases -/

/-- All that is printed. -/
def textOf (r : Res (World × List Byte)) : Option (List Byte) := r.toOption.map (·.2)

/-- A world with consumers of the application. -/
def caseApp : World := World.new ⟨32⟩ (fun _ => .app) (fun _ => Locomotive.construct (List.replicate 8 0#8))

/-- Only the progress is logged. -/
example : textOf (caseApp.runO { events := true, packets := true, all := false, dump := false, rawIn := false, out := false }
    (caseLoggedOps "[session" "]\n .id=1" "ab=cd\n\n\n")) = some (
      str " Stream length: 24 Bytes. CRC requested: 0000 CRC actual: 0xffff.\n" ++
      str "Stream continues. Bytes remaining: 16, Current CRC: 0xd574\n" ++
      str "Stream continues. Bytes remaining: 8, Current CRC: 0x1f13\n" ++
      str "CRC Error - Stream aborted. CRC requested: 0000, CRC actual: 0x9ebf.\n") := by decide +kernel

/-- A frame with all switches on. -/
example : arrival { events := true, packets := true, all := true, dump := true, rawIn := true, out := true }
    { id := ⟨0x420301#32⟩, data := { dlc := 2#8, b0 := 65#8, b1 := 10#8 } } =
    str "Prio: 0000, Command: 0X21, Response: 0000, Hash: 0X0301\nConfig Data Stream.\n 0x41 0xa 'A\n' " := by decide +kernel

/-- The stream of a station that asked for the list, whatever is logged. -/
example (g : LogConfig) : ∃ (w v u : World) (t : List Byte),
    (w.run [.parserStart 0 (some 7), .requestEngineList 0#8 (some 0)] = .ok v) ∧
    v.runO g ((({ id := ⟨0x420301#32⟩, data := { dlc := 6#8, b3 := 8#8 } } : CanFrame) ::
      [{ id := ⟨0x420301#32⟩, data := { dlc := 8#8, b0 := 65#8 } }]).map .handle) =
      .ok (u, announcement g { id := ⟨0x420301#32⟩, data := { dlc := 6#8, b3 := 8#8 } } ++ t) ∧
    Trace g 0#16 [] [{ id := ⟨0x420301#32⟩, data := { dlc := 8#8, b0 := 65#8 } }] t := by
  obtain ⟨w, -, h2, h3, h4, h5, h6, h7, h8⟩ := started (fun _ => .app) (fun _ => Locomotive.construct (List.replicate 8 0#8))
  obtain ⟨v, u, t, a1, a2, a3⟩ := C90_download g w h2 5 h5 0 7 (by rw [h6]) (by rw [h8]; decide) _ (.engineList 0#8)
    { id := ⟨0x420301#32⟩, data := { dlc := 6#8, b3 := 8#8 } }
    [{ id := ⟨0x420301#32⟩, data := { dlc := 8#8, b0 := 65#8 } }] ⟨by decide, by decide⟩
    (by intro f hf; rw [List.mem_singleton] at hf; subst hf; exact ⟨by decide, by decide⟩) (Or.inl rfl) (by intro d hd; simp at hd; subst hd; rfl) (by simp)
    (by decide) (by decide)
  exact ⟨w, v, u, t, a1, a2, a3⟩

/-- An entry of an engine. -/
example : textOf (caseLogged.runO { events := true, packets := false, all := false, dump := false, rawIn := false, out := false }
    (caseLoggedOps "[lokomot" "ive]\n .u" "id=0x40\n")) = some (
      str "EngineControl::consumeConfigData(\"lokomotive\", \"uid\", \"0x40\")\nSetting UID\n" ++
      str "CRC Error - Stream aborted. CRC requested: 0000, CRC actual: 0x6b2a.\n") := by decide +kernel

/-- A call of a consumer. -/
example : textOf (callConsumerO .tests caseLogged (callOf (7, .entry ⟨str "lokomotive", str "typ", str "mfx"⟩))) =
    some (str "EngineControl::consumeConfigData(\"lokomotive\", \"typ\", \"mfx\")\nSetting protocol\n") := by decide +kernel

/-- The end of a file, for a consumer with an engine and for one without. -/
example : (textOf (callConsumerO .template caseLogged (callOf (7, .complete)))).isSome ∧
    textOf (callConsumerO .tests { caseLogged with consumers := fun _ => .loco ⟨.null, .null⟩ } (callOf (7, .complete))) = some [] := by
  decide +kernel

/-- A refused request. -/
example : textOf (caseApp.runO { events := false, packets := false, all := false, dump := false, rawIn := false, out := true }
    [.begin_ 1#16 { tx := some 5 }, .requestShortInfo { availability := .EMPTY, name := [] } (some 0)]) =
    some (str "Station::RequestEngine: No Engine Name given, dropping request.\n") := by decide +kernel

/-- More switches. -/
example : LogConfig.Le .template .tests := ⟨by decide, by decide, by decide, by decide, by decide, by decide⟩

end RR32
