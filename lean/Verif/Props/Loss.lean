import Verif.Props.Stream
import Verif.Props.Traffic
import Verif.Proofs.Reentrant
import Verif.Spec.Loss

/-! # C62: the end of a stream in every history of a stream parser -/

set_option autoImplicit false

namespace RR32

open Spec

/-- What a parser heard since it was last started; nothing if it was reset since, or never started. -/
def hear (l : Option (List Data)) : StreamOp → Option (List Data)
  | .start => some []
  | .attach _ => l
  | .add d => l.map (· ++ [d])
  | .reset => none

def heard (ops : List StreamOp) : Option (List Data) := ops.foldl hear none

theorem heard_snoc (ops : List StreamOp) (op : StreamOp) : heard (ops ++ [op]) = hear (heard ops) op := by
  simp only [heard, List.foldl_append, List.foldl_cons, List.foldl_nil]

/-! ## Lists of packets -/

theorem areData_append {a b : List Data} : AreData (a ++ b) ↔ AreData a ∧ AreData b := by
  simp only [AreData, List.mem_append]
  exact ⟨fun h => ⟨fun d hd => h d (Or.inl hd), fun d hd => h d (Or.inr hd)⟩, fun h d hd => hd.elim (h.1 d) (h.2 d)⟩

theorem whole_pending {l : List Data} {d : Data} (h : Whole (l ++ [d])) : Pending l := by
  cases l with
  | nil => trivial
  | cons first ds =>
    rw [List.cons_append] at h
    obtain ⟨h1, h2, h3, -⟩ := h
    refine ⟨h1, (areData_append.mp h2).1, ?_⟩
    intro k hk
    rw [h3, List.length_append, List.length_singleton]
    omega

theorem whole_not_pending {l : List Data} (h : Whole l) : ¬Pending l := by
  cases l with
  | nil => exact h.elim
  | cons first ds => exact fun g => g.2.2 ds.length (Nat.le_refl _) h.2.2.1.symm

theorem pending_prefix {l : List Data} {d : Data} (h : Pending (l ++ [d])) : Pending l := by
  cases l with
  | nil => trivial
  | cons first ds =>
    rw [List.cons_append] at h
    obtain ⟨h1, h2, h3⟩ := h
    exact ⟨h1, (areData_append.mp h2).1, fun k hk => h3 k (by rw [List.length_append]; omega)⟩

theorem pending_start {l b : List Data} (h : Pending (l ++ b)) : Pending l := by
  cases l with
  | nil => trivial
  | cons first ds =>
    rw [List.cons_append] at h
    obtain ⟨h1, h2, h3⟩ := h
    exact ⟨h1, (areData_append.mp h2).1, fun k hk => h3 k (by rw [List.length_append]; omega)⟩

theorem whole_strict {l b : List Data} (hb : b ≠ []) (h : Whole (l ++ b)) : Pending l := by
  cases l with
  | nil => trivial
  | cons first ds =>
    rw [List.cons_append] at h
    obtain ⟨h1, h2, h3, -⟩ := h
    have := List.length_pos_of_ne_nil hb
    refine ⟨h1, (areData_append.mp h2).1, ?_⟩
    intro k hk
    rw [h3, List.length_append]
    omega

/-! ## The invariant -/

/-- A parser and what it heard. -/
structure Hears (p : StreamParser) (l : Option (List Data)) : Prop where
  first : p.state = .WAITING_FIRST_PACKET → l = some []
  data : p.state = .WAITING_DATA_PACKET → ∃ f ds, l = some (f :: ds) ∧ Pending (f :: ds) ∧
    p.remaining = BitVec.ofNat 32 (announcedLength f) - BitVec.ofNat 32 (8 * ds.length) ∧
    p.crc = some ((payload ds).foldl Crc.updateCrc (Crc.reset.loadReference (announcedCrc f)))
  over : p.isProcessing = false → ∀ m, l = some m → ¬Pending m
  fresh : p.state = .WAITING_FIRST_PACKET → p.crc = some Crc.reset

theorem announced_lt (d : Data) : announcedLength d < 2 ^ 32 := by
  rw [← firstLength_eq]; exact (StreamParser.firstLength d).isLt

theorem remaining_zero (f : Data) (n : Nat) (h : ∀ k < n, 8 * k ≠ announcedLength f) :
    BitVec.ofNat 32 (announcedLength f) - BitVec.ofNat 32 (8 * n) = 0#32 ↔ 8 * n = announcedLength f := by
  have hlt := announced_lt f
  rw [BitVec.sub_eq_iff_eq_add, BitVec.zero_add]
  constructor
  · intro e
    have e := congrArg BitVec.toNat e
    simp only [BitVec.toNat_ofNat] at e
    by_cases h8 : announcedLength f % 8 = 0
    · have := h (announcedLength f / 8)
      by_cases hn : announcedLength f / 8 < n
      · exact absurd (by omega) (this hn)
      · omega
    · omega
  · intro e; rw [e]

theorem Hears.progress {p : StreamParser} {l : Option (List Data)} (h : Hears p l) : p.isProcessing = true ↔ ∃ m, l = some m ∧ Pending m := by
  constructor
  · intro hp
    cases hs : p.state with
    | IDLE => simp [StreamParser.isProcessing, hs] at hp
    | STREAM_DONE => simp [StreamParser.isProcessing, hs] at hp
    | WAITING_FIRST_PACKET => exact ⟨[], h.first hs, trivial⟩
    | WAITING_DATA_PACKET =>
      obtain ⟨f, ds, h1, h2, -⟩ := h.data hs
      exact ⟨_, h1, h2⟩
  · rintro ⟨m, h1, h2⟩
    cases hp : p.isProcessing with
    | true => rfl
    | false => exact absurd h2 (h.over hp m h1)

/-- A parser that stopped and what it heard. -/
theorem Hears.stopped {p : StreamParser} {l : Option (List Data)} (hs : p.state = .IDLE ∨ p.state = .STREAM_DONE)
    (h : ∀ m, l = some m → ¬Pending m) : Hears p l :=
  ⟨by intro e; rcases hs with hs | hs <;> rw [hs] at e <;> (cases e), by intro e; rcases hs with hs | hs <;> rw [hs] at e <;> (cases e),
    fun _ => h, by intro e; rcases hs with hs | hs <;> rw [hs] at e <;> cases e⟩

/-- The end notices of a call, by what was heard before it. -/
def EndsWith (l : Option (List Data)) (op : StreamOp) (fin : List Notice) : Prop :=
  match op with
  | .start => fin = []
  | .attach _ => fin = []
  | .reset => (fin = [.aborted] ∧ ∃ m, l = some m ∧ Pending m) ∨ (fin = [] ∧ ∀ m, l = some m → ¬Pending m)
  | .add d =>
      (fin = [.complete] ∧ ∃ m, l = some m ∧ Whole (m ++ [d])) ∨
      (fin = [.aborted] ∧ ∃ m, l = some m ∧ Pending m ∧ ¬Pending (m ++ [d]) ∧ ¬Whole (m ++ [d])) ∨
      (fin = [] ∧ ∀ m, l = some m → Pending m → Pending (m ++ [d]))

theorem resetNotify_notices (p : StreamParser) : p.resetNotify.map noticeOf = if p.isProcessing then say p.consumer [.aborted] else [] := by
  unfold StreamParser.resetNotify
  cases hs : p.state <;> simp [StreamParser.isProcessing, hs, notices_notify_aborted]

theorem hear_step (p : StreamParser) (s : Reader) (h : SInv p s) (l : Option (List Data)) (hl : Hears p l) (op : StreamOp) :
    ∃ (q : StreamParser) (calls : List ConsumerCall) (s' : Reader) (es : List Entry) (fin : List Notice), streamStep p op = .ok (q, calls) ∧ SInv q s' ∧ Hears q (hear l op) ∧
      calls.map noticeOf = say p.consumer (es.map .entry ++ fin) ∧ EndsWith l op fin := by
  have hstop : Hears cleared none := .stopped (Or.inl rfl) (by intro m e; cases e)
  have hnil : ∀ c, say c [] = [] := by intro c; cases c <;> rfl
  cases op with
  | start => exact ⟨_, _, s, [], [], rfl, start_sinv p s h, ⟨fun _ => rfl, by intro e; (cases e), by intro e; (cases e), fun _ => rfl⟩, (hnil _).symm, rfl⟩
  | attach c =>
    exact ⟨_, _, s, [], [], rfl, attach_sinv p s h c, ⟨hl.first, hl.data, hl.over, hl.fresh⟩, (hnil _).symm, rfl⟩
  | reset =>
    refine ⟨cleared, _, .start, [], if p.isProcessing then [.aborted] else [], reset_sinv p s h, cleared_sinv, hstop, ?_, ?_⟩
    · rw [resetNotify_notices, List.map_nil, List.nil_append]
      split
      · rfl
      · exact (hnil _).symm
    · cases hp : p.isProcessing with
      | true => exact Or.inl ⟨rfl, hl.progress.mp hp⟩
      | false => exact Or.inr ⟨rfl, hl.over hp⟩
  | add d =>
    simp only [streamStep]
    have quiet : p.state = .IDLE ∨ p.state = .STREAM_DONE → p.isProcessing = false := by
      rintro (hs | hs) <;> simp [StreamParser.isProcessing, hs]
    have idle : p.state = .IDLE ∨ p.state = .STREAM_DONE → ∃ (q : StreamParser) (calls : List ConsumerCall) (s' : Reader) (es : List Entry) (fin : List Notice), p.addMessage d = .ok (q, calls) ∧ SInv q s' ∧
        Hears q (hear l (.add d)) ∧ calls.map noticeOf = say p.consumer (es.map .entry ++ fin) ∧ EndsWith l (.add d) fin := by
      intro hs
      refine ⟨p, [], s, [], [], quiet_step p hs d, h, .stopped hs ?_, (hnil _).symm, Or.inr (Or.inr ⟨rfl, fun m e g => absurd g (hl.over (quiet hs) m e)⟩)⟩
      intro m e
      cases l with
      | none => cases e
      | some m' =>
        cases e
        exact fun g => hl.over (quiet hs) m' rfl (pending_prefix (d := d) g)
    -- a packet that spoils the stream
    have spoil : ∀ m, l = some m → Pending m → ¬Pending (m ++ [d]) → ¬Whole (m ++ [d]) → p.addMessage d = p.reset →
        ∃ (q : StreamParser) (calls : List ConsumerCall) (s' : Reader) (es : List Entry) (fin : List Notice), p.addMessage d = .ok (q, calls) ∧ SInv q s' ∧
        Hears q (hear l (.add d)) ∧ calls.map noticeOf = say p.consumer (es.map .entry ++ fin) ∧ EndsWith l (.add d) fin := by
      intro m hm h1 h2 h3 he
      have hp : p.isProcessing = true := hl.progress.mpr ⟨m, hm, h1⟩
      refine ⟨cleared, _, .start, [], [.aborted], he.trans (reset_sinv p s h), cleared_sinv, .stopped (Or.inl rfl) ?_, ?_,
        Or.inr (Or.inl ⟨rfl, m, hm, h1, h2, h3⟩)⟩
      · subst hm
        intro x e
        cases e
        exact h2
      · rw [resetNotify_notices, hp]; rfl
    cases hs : p.state with
    | IDLE => exact idle (Or.inl hs)
    | STREAM_DONE => exact idle (Or.inr hs)
    | WAITING_FIRST_PACKET =>
      have hm := hl.first hs
      by_cases hd : IsFirst d
      · obtain ⟨c, hc, he⟩ := first_step p s h hs d hd
        rw [hl.fresh hs] at hc
        cases hc
        by_cases h0 : announcedLength d = 0
        · rw [if_pos h0] at he
          have hw : Whole [d] := ⟨hd, (by intro x hx; cases hx), h0, Or.inl rfl⟩
          refine ⟨_, _, s, [], [.complete], he, ⟨h.text, by intro e; cases e⟩, .stopped (Or.inr rfl) ?_, ?_, Or.inl ⟨rfl, [], hm, hw⟩⟩
          · subst hm
            intro x e
            cases e
            exact whole_not_pending hw
          · exact notices_notify_complete p
        · rw [if_neg h0] at he
          have hpd : Pending [d] := ⟨hd, (by intro x hx; cases hx), by intro k hk; have : k = 0 := Nat.le_zero.mp hk; subst this; omega⟩
          refine ⟨_, _, s, [], [], he, ⟨h.text, by intro e; cases e⟩, ⟨by intro e; (cases e), fun _ => ⟨d, [], ?_, hpd, ?_, rfl⟩, by intro e; (cases e), by intro e; cases e⟩,
            (hnil _).symm, Or.inr (Or.inr ⟨rfl, ?_⟩)⟩
          · rw [hm]; rfl
          · simp
          · intro m e _
            rw [hm] at e
            cases e
            exact hpd
      · exact spoil [] hm trivial (fun g => hd g.1) (fun g => hd g.1) (first_bad p hs d hd)
    | WAITING_DATA_PACKET =>
      obtain ⟨f, ds, hm, hpd, hrem, hcrc⟩ := hl.data hs
      by_cases hd : d.dlc = 8#8
      · obtain ⟨c, q, calls, hc, g1, g2, g3, g4, g5, g6, g7, -⟩ := data_step p s h hs d hd
        rw [hcrc] at hc
        cases hc
        have hdata : AreData (ds ++ [d]) := areData_append.mpr ⟨hpd.2.1, by intro x hx; rw [List.mem_singleton.mp hx, hd]; rfl⟩
        have hpay : payload (ds ++ [d]) = payload ds ++ packetBytes d := by
          simp only [payload, List.flatMap_append, List.flatMap_cons, List.flatMap_nil, List.append_nil, packetBytes]
        have hlen : (ds ++ [d]).length = ds.length + 1 := by simp
        rw [← List.foldl_append, ← hpay] at g4 g6 g7
        have hrem' : q.remaining = BitVec.ofNat 32 (announcedLength f) - BitVec.ofNat 32 (8 * (ds ++ [d]).length) := by
          rw [g3, hrem, hlen, Nat.mul_add, BitVec.ofNat_add, BitVec.sub_sub]
        have hz := remaining_zero f (ds ++ [d]).length (by intro k hk; exact hpd.2.2 k (by rw [hlen] at hk; omega))
        rw [← hrem'] at hz
        have hv := C29_valid (payload (ds ++ [d])) Crc.reset (announcedCrc f)
        rw [show crcFrom Crc.reset (payload (ds ++ [d])) = crcOf (payload (ds ++ [d])) from rfl, ← isCrcOf_iff] at hv
        have hhear : hear l (.add d) = some (f :: (ds ++ [d])) := by rw [hm]; rfl
        by_cases hr : q.remaining = 0#32
        · have he := (hz.mp hr).symm
          have hnp : ¬Pending (f :: (ds ++ [d])) := fun g => g.2.2 _ (Nat.le_refl _) he.symm
          by_cases hcr : IsCrcOf (announcedCrc f) (payload (ds ++ [d]))
          · rw [hr, hv.mpr hcr] at g6 g7
            exact ⟨q, calls, _, _, [.complete], g1, g2, .stopped (Or.inr g6) (by rw [hhear]; intro x e; cases e; exact hnp), g7,
              Or.inl ⟨rfl, _, hm, hpd.1, hdata, he, Or.inr hcr⟩⟩
          · have hf : ((payload (ds ++ [d])).foldl Crc.updateCrc (Crc.reset.loadReference (announcedCrc f))).isCrcValid = false := by
              rw [← Bool.not_eq_true]
              exact fun e => hcr (hv.mp e)
            rw [hr, hf] at g6 g7
            refine ⟨q, calls, _, _, [.aborted], g1, g2, .stopped (Or.inl g6) (by rw [hhear]; intro x e; cases e; exact hnp), g7,
              Or.inr (Or.inl ⟨rfl, _, hm, hpd, hnp, ?_⟩)⟩
            rintro ⟨-, -, -, k | k⟩
            · simp at k
            · exact hcr k
        · have hp' : Pending (f :: (ds ++ [d])) := by
            refine ⟨hpd.1, hdata, ?_⟩
            intro k hk
            by_cases hk' : k = (ds ++ [d]).length
            · rw [hk']; exact fun e => hr (hz.mpr e)
            · exact hpd.2.2 k (by rw [hlen] at hk hk'; omega)
          simp only [endState, endNotice, if_neg hr] at g6 g7
          refine ⟨q, calls, _, _, [], g1, g2, ⟨by rw [g6]; intro e; (cases e), fun _ => ⟨f, ds ++ [d], hhear, hp', hrem', g4⟩, ?_, by rw [g6]; intro e; cases e⟩, g7,
            Or.inr (Or.inr ⟨rfl, ?_⟩)⟩
          · simp [StreamParser.isProcessing, g6]
          · intro m e _
            rw [hm] at e
            cases e
            exact hp'
      · have hno : ¬AreData (ds ++ [d]) := fun g => hd (BitVec.eq_of_toNat_eq (g d (by simp)))
        exact spoil _ hm hpd (fun g => hno g.2.1) (fun g => hno g.2.1) (data_bad p hs d hd)

theorem hear_run (p : StreamParser) (s : Reader) (h : SInv p s) (l : Option (List Data)) (hl : Hears p l) (ops : List StreamOp) :
    ∃ q calls s', streamRun p ops = .ok (q, calls) ∧ SInv q s' ∧ Hears q (ops.foldl hear l) := by
  induction ops generalizing p s l with
  | nil => exact ⟨p, [], s, rfl, h, hl⟩
  | cons op ops ih =>
    obtain ⟨q, calls, s', -, -, h1, h2, h3, -⟩ := hear_step p s h l hl op
    obtain ⟨r, calls', s'', h4, h5, h6⟩ := ih q s' h2 _ h3
    exact ⟨r, calls ++ calls', s'', by simp only [streamRun, h1, h4, bind, Except.bind], h5, h6⟩

/-- A parser after a history from the constructor, on memory with any content. -/
def After (ops : List StreamOp) (p : StreamParser) : Prop :=
  ∃ a b c d t calls, a.length = 31 ∧ b.length = 11 ∧ c.length = 11 ∧ d.length = 26 ∧ TextParser.construct a b c d = .ok t ∧
    streamRun (StreamParser.construct t) ops = .ok (p, calls)

theorem After.inv {ops : List StreamOp} {p : StreamParser} (h : After ops p) : ∃ s, SInv p s ∧ Hears p (heard ops) := by
  obtain ⟨a, b, c, d, t, calls, ha, hb, hc, hd, ht, hr⟩ := h
  obtain ⟨q, calls', s, h1, h2, h3⟩ := hear_run _ _ (construct_sinv a b c d ha hb hc hd t ht) none
    (.stopped (Or.inl rfl) (by intro m e; cases e)) ops
  rw [hr] at h1
  cases h1
  exact ⟨s, h2, h3⟩

theorem say_mem {c : Option Nat} {es : List Entry} {fin : List Notice} {n : Nat} {x : Notice} (hx : x.isEnd = true) :
    (n, x) ∈ say c (es.map .entry ++ fin) ↔ c = some n ∧ x ∈ fin := by
  cases c with
  | none => simp [say]
  | some m =>
    simp only [say, List.map_append, List.mem_append, List.mem_map, Option.some.injEq]
    constructor
    · rintro (⟨y, ⟨e, -, rfl⟩, h⟩ | ⟨y, hy, h⟩)
      · cases h; cases hx
      · cases h; exact ⟨rfl, hy⟩
    · rintro ⟨rfl, h⟩
      exact Or.inr ⟨x, h, rfl⟩

/-- C62: in every history a parser waits for packets exactly if what it heard since it was started leaves a stream open. -/
theorem C62_progress (ops : List StreamOp) (p : StreamParser) (h : After ops p) :
    p.isProcessing = true ↔ ∃ l, heard ops = some l ∧ Pending l := by
  obtain ⟨s, -, h⟩ := h.inv
  exact h.progress

/-- C62: in every history, whatever packets were lost, repeated or mixed up: a call tells a consumer that a stream is complete exactly if
the consumer is attached, the call is a packet, and all the packets since the start are one whole stream. -/
theorem C62_complete (ops : List StreamOp) (p : StreamParser) (h : After ops p) (op : StreamOp) :
    ∃ q calls, streamStep p op = .ok (q, calls) ∧ After (ops ++ [op]) q ∧ ∀ n, (n, .complete) ∈ calls.map noticeOf ↔
      p.consumer = some n ∧ ∃ d l, op = .add d ∧ heard (ops ++ [op]) = some l ∧ Whole l := by
  obtain ⟨s, hs, hl⟩ := h.inv
  obtain ⟨q, calls, s', es, fin, h1, -, -, h2, h3⟩ := hear_step p s hs _ hl op
  refine ⟨q, calls, h1, ?_, ?_⟩
  · obtain ⟨a, b, c, d, t, calls0, ha, hb, hc, hd, ht, hr⟩ := h
    exact ⟨a, b, c, d, t, calls0 ++ (calls ++ []), ha, hb, hc, hd, ht, by simp only [streamRun_append, hr, streamRun, h1, bind, Except.bind]⟩
  intro n
  rw [h2, say_mem rfl, heard_snoc]
  refine and_congr_right (fun _ => ?_)
  generalize heard ops = l at h3
  cases op with
  | start => simp only [EndsWith] at h3; subst h3; simp
  | attach c => simp only [EndsWith] at h3; subst h3; simp
  | reset =>
    rcases h3 with ⟨h3, -⟩ | ⟨h3, -⟩ <;> subst h3 <;> simp
  | add d =>
    have key : (∃ d' m, StreamOp.add d = .add d' ∧ hear l (.add d) = some m ∧ Whole m) ↔ ∃ m, l = some m ∧ Whole (m ++ [d]) := by
      constructor
      · rintro ⟨d', m, -, g1, g2⟩
        cases l with
        | none => cases g1
        | some m' => cases g1; exact ⟨m', rfl, g2⟩
      · rintro ⟨m, rfl, g⟩
        exact ⟨d, _, rfl, rfl, g⟩
    rw [key]
    rcases h3 with ⟨h3, g⟩ | ⟨h3, m, g1, g2, g3, g4⟩ | ⟨h3, g⟩
    · subst h3; simp [g]
    · subst h3 g1
      simp [g4]
    · subst h3
      constructor
      · intro e; cases e
      · rintro ⟨m, rfl, w⟩
        exact absurd (g m rfl (whole_pending w)) (whole_not_pending w)

/-- C62: in every history, a call tells a consumer that a stream is aborted exactly if the consumer is attached, a stream was open, and
the call is a reset or a packet that neither leaves the stream open nor makes it whole. -/
theorem C62_aborted (ops : List StreamOp) (p : StreamParser) (h : After ops p) (op : StreamOp) :
    ∃ q calls, streamStep p op = .ok (q, calls) ∧ ∀ n, (n, .aborted) ∈ calls.map noticeOf ↔
      p.consumer = some n ∧ ∃ l, heard ops = some l ∧ Pending l ∧
        (op = .reset ∨ ∃ d, op = .add d ∧ ¬Pending (l ++ [d]) ∧ ¬Whole (l ++ [d])) := by
  obtain ⟨s, hs, hl⟩ := h.inv
  obtain ⟨q, calls, s', es, fin, h1, -, -, h2, h3⟩ := hear_step p s hs _ hl op
  refine ⟨q, calls, h1, ?_⟩
  intro n
  rw [h2, say_mem rfl]
  refine and_congr_right (fun _ => ?_)
  generalize heard ops = l at h3
  cases op with
  | start => simp only [EndsWith] at h3; subst h3; simp
  | attach c => simp only [EndsWith] at h3; subst h3; simp
  | reset =>
    rcases h3 with ⟨h3, m, rfl, g⟩ | ⟨h3, g⟩
    · subst h3; simp [g]
    · subst h3
      constructor
      · intro e; cases e
      · rintro ⟨m, e, g1, -⟩
        exact absurd g1 (g m e)
  | add d =>
    rcases h3 with ⟨h3, m, rfl, g⟩ | ⟨h3, m, rfl, g2, g3, g4⟩ | ⟨h3, g⟩
    · subst h3
      constructor
      · intro e; simp at e
      · rintro ⟨m', e, -, k | ⟨d', e', -, k⟩⟩
        · cases k
        · cases e; cases e'; exact absurd g k
    · subst h3
      simp [g2, g3, g4]
    · subst h3
      constructor
      · intro e; cases e
      · rintro ⟨m, e, g1, k | ⟨d', e', k, -⟩⟩
        · cases k
        · cases e'; exact absurd (g m e g1) k

/-! ## Loss -/

/-- A packet that leaves a stream open leaves the consumer attached. -/
theorem add_keeps_consumer (p : StreamParser) (s : Reader) (h : SInv p s) (d : Data) (q : StreamParser) (calls : List ConsumerCall)
    (he : p.addMessage d = .ok (q, calls)) (hq : q.isProcessing = true) : q.consumer = p.consumer := by
  have hreset : p.addMessage d = p.reset → q.consumer = p.consumer := by
    intro e
    rw [e, reset_sinv p s h] at he
    cases he
    cases hq
  cases hs : p.state with
  | IDLE => rw [quiet_step p (Or.inl hs)] at he; cases he; rfl
  | STREAM_DONE => rw [quiet_step p (Or.inr hs)] at he; cases he; rfl
  | WAITING_FIRST_PACKET =>
    by_cases hd : IsFirst d
    · obtain ⟨c, -, g⟩ := first_step p s h hs d hd
      rw [g] at he
      split at he <;> (cases he; rfl)
    · exact hreset (first_bad p hs d hd)
  | WAITING_DATA_PACKET =>
    by_cases hd : d.dlc = 8#8
    · obtain ⟨c, q', calls', -, g1, -, -, -, g5, -⟩ := data_step p s h hs d hd
      rw [g1] at he
      cases he
      exact g5
    · exact hreset (data_bad p hs d hd)

/-- A packet that ends nothing, and a packet that ends a stream. -/
theorem packets_run (xs : List Data) (p : StreamParser) (s : Reader) (h : SInv p s) (l : List Data) (hl : Hears p (some l)) :
    ∃ q calls s', streamRun p (xs.map .add) = .ok (q, calls) ∧ SInv q s' ∧ Hears q (some (l ++ xs)) ∧
      (∀ n, (n, .complete) ∈ calls.map noticeOf ↔ p.consumer = some n ∧ ∃ pre, pre ≠ [] ∧ pre <+: xs ∧ Whole (l ++ pre)) ∧
      (∀ n, (n, .aborted) ∈ calls.map noticeOf ↔ p.consumer = some n ∧ Pending l ∧ ¬Pending (l ++ xs) ∧ ∀ pre, pre <+: xs → ¬Whole (l ++ pre)) := by
  induction xs generalizing p s l with
  | nil =>
    refine ⟨p, [], s, rfl, h, by rw [List.append_nil]; exact hl, ?_, ?_⟩
    · intro n
      constructor
      · intro e; cases e
      · rintro ⟨-, pre, h1, h2, -⟩
        exact absurd (List.prefix_nil.mp h2) h1
    · intro n
      rw [List.append_nil]
      constructor
      · intro e; cases e
      · rintro ⟨-, h1, h2, -⟩
        exact absurd h1 h2
  | cons d xs ih =>
    obtain ⟨q, calls, s', es, fin, h1, h2, h3, h4, h5⟩ := hear_step p s h (some l) hl (.add d)
    obtain ⟨r, calls', s'', g1, g2, g3, g4, g5⟩ := ih q s' h2 (l ++ [d]) h3
    have hassoc : l ++ [d] ++ xs = l ++ d :: xs := by simp
    rw [hassoc] at g3 g5
    refine ⟨r, calls ++ calls', s'', by simp only [List.map_cons, streamRun, h1, g1, bind, Except.bind], g2, g3, ?_, ?_⟩
    · intro n
      rw [List.map_append, List.mem_append, h4, say_mem rfl, g4]
      constructor
      · rintro (⟨k1, k2⟩ | ⟨k1, pre, k2, k3, k4⟩)
        · refine ⟨k1, [d], by simp, ⟨xs, rfl⟩, ?_⟩
          rcases h5 with ⟨-, m, e, w⟩ | ⟨e, -⟩ | ⟨e, -⟩
          · cases e; exact w
          · rw [e] at k2; simp at k2
          · rw [e] at k2; cases k2
        · have w : Whole (l ++ d :: pre) := by rw [← List.append_cons] at k4; exact k4
          have hpend : Pending (l ++ [d]) := whole_strict k2 k4
          have hq : q.isProcessing = true := h3.progress.mpr ⟨_, rfl, hpend⟩
          exact ⟨by rw [← add_keeps_consumer p s h d q calls h1 hq]; exact k1, d :: pre, by simp, (List.prefix_cons_inj d).mpr k3, w⟩
      · rintro ⟨k1, pre, k2, k3, k4⟩
        obtain ⟨pre', rfl⟩ : ∃ pre', pre = d :: pre' := by
          cases pre with
          | nil => exact absurd rfl k2
          | cons x pre' => exact ⟨pre', by rw [(List.cons_prefix_cons.mp k3).1]⟩
        by_cases hn : pre' = []
        · subst hn
          refine Or.inl ⟨k1, ?_⟩
          rcases h5 with ⟨e, -⟩ | ⟨-, m, e, -, -, e'⟩ | ⟨-, e⟩
          · rw [e]; simp
          · cases e; exact absurd k4 e'
          · exact absurd (e l rfl (whole_pending k4)) (whole_not_pending k4)
        · rw [List.append_cons] at k4
          have hq : q.isProcessing = true := h3.progress.mpr ⟨_, rfl, whole_strict hn k4⟩
          exact Or.inr ⟨by rw [add_keeps_consumer p s h d q calls h1 hq]; exact k1, pre', hn, (List.cons_prefix_cons.mp k3).2, k4⟩
    · intro n
      rw [List.map_append, List.mem_append, h4, say_mem rfl, g5]
      constructor
      · rintro (⟨k1, k2⟩ | ⟨k1, k2, k3, k4⟩)
        · rcases h5 with ⟨e, -⟩ | ⟨-, m, e, e1, e2, e3⟩ | ⟨e, -⟩
          · rw [e] at k2; simp at k2
          · cases e
            refine ⟨k1, e1, fun g => e2 (pending_start (b := xs) (by rw [hassoc]; exact g)), ?_⟩
            intro pre k3 w
            cases pre with
            | nil => rw [List.append_nil] at w; exact whole_not_pending w e1
            | cons x pre' =>
              rw [(List.cons_prefix_cons.mp k3).1] at w
              by_cases hn : pre' = []
              · subst hn; exact e3 w
              · rw [List.append_cons] at w; exact e2 (whole_strict hn w)
          · rw [e] at k2; cases k2
        · have hq : q.isProcessing = true := h3.progress.mpr ⟨_, rfl, k2⟩
          refine ⟨by rw [← add_keeps_consumer p s h d q calls h1 hq]; exact k1, pending_start k2, k3, ?_⟩
          intro pre k5 w
          cases pre with
          | nil => rw [List.append_nil] at w; exact whole_not_pending w (pending_start k2)
          | cons x pre' =>
            rw [(List.cons_prefix_cons.mp k5).1, List.append_cons] at w
            exact k4 pre' (List.cons_prefix_cons.mp k5).2 w
      · rintro ⟨k1, k2, k3, k4⟩
        by_cases hp : Pending (l ++ [d])
        · have hq : q.isProcessing = true := h3.progress.mpr ⟨_, rfl, hp⟩
          refine Or.inr ⟨by rw [add_keeps_consumer p s h d q calls h1 hq]; exact k1, hp, k3, ?_⟩
          intro pre k5 w
          rw [← List.append_cons] at w
          exact k4 (d :: pre) ((List.prefix_cons_inj d).mpr k5) w
        · refine Or.inl ⟨k1, ?_⟩
          rcases h5 with ⟨-, m, e, w⟩ | ⟨e, -⟩ | ⟨-, e⟩
          · cases e; exact absurd w (k4 [d] ⟨xs, rfl⟩)
          · rw [e]; simp
          · exact absurd (e l rfl k2) hp

/-- C62: what a started parser says about any packets whatsoever: complete exactly if they begin with a whole stream, aborted exactly if
they do not and do not leave a stream open either. -/
theorem C62_packets (p : StreamParser) (hp : ReachableStream p) (xs : List Data) :
    ∃ q calls, streamRun p (.start :: xs.map .add) = .ok (q, calls) ∧ (q.isProcessing = true ↔ Pending xs) ∧
      (∀ n, (n, .complete) ∈ calls.map noticeOf ↔ p.consumer = some n ∧ ∃ pre, pre <+: xs ∧ Whole pre) ∧
      (∀ n, (n, .aborted) ∈ calls.map noticeOf ↔ p.consumer = some n ∧ ¬Pending xs ∧ ∀ pre, pre <+: xs → ¬Whole pre) := by
  obtain ⟨s, h⟩ := reachable_sinv p hp
  obtain ⟨q, calls, s', h1, -, h3, h4, h5⟩ := packets_run xs p.startStream s (start_sinv p s h) []
    ⟨fun _ => rfl, by intro e; (cases e), by intro e; (cases e), fun _ => rfl⟩
  refine ⟨q, calls, by simp only [streamRun, streamStep, h1, bind, Except.bind, List.nil_append], ?_, ?_, ?_⟩
  · rw [h3.progress]
    exact ⟨by rintro ⟨m, e, g⟩; cases e; exact g, fun g => ⟨_, rfl, g⟩⟩
  · intro n
    rw [h4]
    refine and_congr_right (fun _ => ?_)
    constructor
    · rintro ⟨pre, -, g1, g2⟩; exact ⟨pre, g1, g2⟩
    · rintro ⟨pre, g1, g2⟩; exact ⟨pre, by rintro rfl; exact g2, g1, g2⟩
  · intro n
    rw [h5]
    refine and_congr_right (fun _ => ?_)
    exact ⟨fun g => ⟨g.2.1, g.2.2⟩, fun g => ⟨trivial, g.1, g.2⟩⟩

/-- Some, but not all packets of a stream, and then nothing or another first packet, never begin with a whole stream. -/
theorem lost_not_whole {first : Data} {ds l rest : List Data} (hw : Whole (first :: ds)) (hl : l.Sublist (first :: ds)) (hne : l ≠ [])
    (hlost : l ≠ first :: ds) (hrest : ∀ x ∈ rest.head?, IsFirst x) (pre : List Data) (hp : pre <+: l ++ rest) : ¬Whole pre := by
  cases pre with
  | nil => exact fun w => w
  | cons f es =>
    rintro ⟨w1, w2, w3, -⟩
    obtain ⟨hf, hd, hlen, -⟩ := hw
    cases l with
    | nil => exact hne rfl
    | cons x t =>
      rw [List.cons_append, List.cons_prefix_cons] at hp
      obtain ⟨rfl, hp⟩ := hp
      have h8 : ∀ y : Data, IsFirst y → y.dlc.toNat ≠ 8 := by
        rintro y (h | h) <;> omega
      cases hl with
      | cons _ h => exact h8 f w1 (hd f (h.subset (List.mem_cons_self ..)))
      | cons_cons _ h =>
        have ht : t.length < ds.length := by
          rcases Nat.lt_or_ge t.length ds.length with g | g
          · exact g
          · exact absurd (h.eq_of_length_le g) (fun e => hlost (by rw [e]))
        rcases Nat.lt_or_ge t.length es.length with g | g
        · obtain ⟨r, hr⟩ := hp
          cases rest with
          | nil =>
            have := congrArg List.length hr
            simp at this
            omega
          | cons y rest =>
            have hy : y ∈ es := by
              have e : (es ++ r)[t.length]? = some y := by rw [hr]; simp
              rw [List.getElem?_append_left g] at e
              exact List.mem_of_getElem? e
            exact h8 y (hrest y (by simp)) (w2 y hy)
        · omega

/-- C62: if packets of a stream are lost, the stream is not reported complete, neither when nothing follows nor when other streams
follow; in the latter case, and if the first packet is among the lost ones, it is reported aborted. -/
theorem C62_loss (p : StreamParser) (hp : ReachableStream p) (first : Data) (ds l rest : List Data) (hw : Whole (first :: ds))
    (hl : l.Sublist (first :: ds)) (hne : l ≠ []) (hlost : l ≠ first :: ds) (hrest : ∀ x ∈ rest.head?, IsFirst x) :
    ∃ q calls, streamRun p (.start :: (l ++ rest).map .add) = .ok (q, calls) ∧ (∀ n, (n, .complete) ∉ calls.map noticeOf) ∧
      (∀ n, p.consumer = some n → rest ≠ [] ∨ l.Sublist ds → (n, .aborted) ∈ calls.map noticeOf) := by
  obtain ⟨q, calls, h1, -, h3, h4⟩ := C62_packets p hp (l ++ rest)
  have hno := lost_not_whole hw hl hne hlost hrest
  refine ⟨q, calls, h1, ?_, ?_⟩
  · intro n hn
    obtain ⟨-, pre, g1, g2⟩ := (h3 n).mp hn
    exact hno pre g1 g2
  · intro n hn hr
    refine (h4 n).mpr ⟨hn, ?_, hno⟩
    have h8 : ∀ y : Data, IsFirst y → y.dlc.toNat ≠ 8 := by
      rintro y (h | h) <;> omega
    cases l with
    | nil => exact absurd rfl hne
    | cons x t =>
      rintro ⟨k1, k2, -⟩
      rcases hr with hr | hr
      · cases rest with
        | nil => exact hr rfl
        | cons y rest => exact h8 y (hrest y (by simp)) (k2 y (by simp))
      · exact h8 x k1 (hw.2.1 x (hr.subset (List.mem_cons_self ..)))

/-! ## At the station -/

theorem callConsumers_told (cs : List ConsumerCall) (w w' : World) (h : w.callConsumers cs = .ok w') :
    ∃ new, w'.log = w.log ++ new ∧ (∀ x, .consumer x ∈ new ↔ x ∈ cs) ∧
      (∀ cb m b seen, .streamEnd cb m b seen ∈ new → ∃ x ∈ cs, x.consumer = m ∧ x.action.end? = some b) ∧ ∀ e ∈ new, isCall e = false := by
  induction cs generalizing w with
  | nil => cases h; exact ⟨[], by simp, by simp, by simp, by simp⟩
  | cons c cs ih =>
    rw [World.callConsumers_cons] at h
    obtain ⟨v, h1, h2⟩ := bind_ok h
    obtain ⟨-, -, -, -, l, g1, g2⟩ := World.callConsumer_log w v c h1
    obtain ⟨new, k1, k2, k3, k4⟩ := ih v h2
    refine ⟨[.consumer c] ++ l ++ new, by rw [k1, g1]; simp, ?_, ?_, ?_⟩
    · intro x
      rw [List.mem_append, List.mem_append, k2]
      rcases g2 with rfl | ⟨cb, b, seen, -, -, rfl⟩ <;> simp
    · intro cb m b seen he
      rw [List.mem_append, List.mem_append] at he
      rcases he with (he | he) | he
      · simp at he
      · rcases g2 with rfl | ⟨cb', b', seen', -, e1, rfl⟩
        · cases he
        · simp only [List.mem_singleton, LogEntry.streamEnd.injEq] at he
          obtain ⟨-, rfl, rfl, -⟩ := he
          exact ⟨c, by simp, rfl, e1⟩
      · obtain ⟨x, e1, e2⟩ := k3 cb m b seen he
        exact ⟨x, List.mem_cons_of_mem _ e1, e2⟩
    · intro e he
      rw [List.mem_append, List.mem_append] at he
      rcases he with (he | he) | he
      · rw [List.mem_singleton.mp he]; rfl
      · rcases g2 with rfl | ⟨cb', b', seen', -, e1, rfl⟩
        · cases he
        · rw [List.mem_singleton.mp he]; rfl
      · exact k4 e he

theorem notice_complete {cs : List ConsumerCall} {c : Nat} : ⟨c, .complete⟩ ∈ cs ↔ (c, Notice.complete) ∈ cs.map noticeOf := by
  rw [List.mem_map]
  constructor
  · intro h; exact ⟨_, h, rfl⟩
  · rintro ⟨⟨m, a⟩, h, e⟩
    cases a <;> simp only [noticeOf, Prod.mk.injEq, reduceCtorEq, and_false, and_true] at e
    subst e
    exact h

theorem notice_aborted {cs : List ConsumerCall} {c : Nat} : ⟨c, .aborted⟩ ∈ cs ↔ (c, Notice.aborted) ∈ cs.map noticeOf := by
  rw [List.mem_map]
  constructor
  · intro h; exact ⟨_, h, rfl⟩
  · rintro ⟨⟨m, a⟩, h, e⟩
    cases a <;> simp only [noticeOf, Prod.mk.injEq, reduceCtorEq, and_false, and_true] at e
    subst e
    exact h

/-- C62 at a station: after a request, whatever stream frames arrive, in whatever order and with whatever other traffic in between,
the consumer is told complete exactly if the stream frames begin with a whole stream, and aborted exactly if they do not and do not leave
a stream open. An end-of-stream callback is called with `complete` only in the first case. -/
theorem C62_station (w : World) (h : Sound w) (tx : Nat) (htx : w.station.callbacks.tx = some tx)
    (hen : w.station.callbacks.engine.isSome = true) (n c : Nat) (hi : (w.consumers c).Initialised)
    (hreg : w.station.callbacks.configData ≠ some n) (op : Op) (hr : Requests w n op) (fs : List CanFrame)
    (hfs : ∀ f ∈ fs, commandOf f = 0x21 ∧ f.data.dlc.toNat ≤ 9)
    (ops : List Op) (hops : ops.filter (fun o => !isControl o) = fs.map .handle) :
    ∃ v, w.run [.parserStart n (some c), op] = .ok v ∧ ∀ u, v.run ops = .ok u → ∃ new,
      u.log.filter (fun e => !isCall e) = v.log.filter (fun e => !isCall e) ++ new ∧
      (.consumer ⟨c, .complete⟩ ∈ new ↔ ∃ pre, pre <+: fs.map (·.data) ∧ Whole pre) ∧
      (.consumer ⟨c, .aborted⟩ ∈ new ↔ ¬Pending (fs.map (·.data)) ∧ ∀ pre, pre <+: fs.map (·.data) → ¬Whole pre) ∧
      (∀ cb m seen, .streamEnd cb m true seen ∈ new → m = c ∧ ∃ pre, pre <+: fs.map (·.data) ∧ Whole pre) := by
  obtain ⟨s, hs⟩ := h.parsers n
  have h1 := (C58_step w h (.parserStart n (some c)) hi).2 _ rfl
  have hr' : Requests (w.setParser n ((w.parsers n).startStreamConsumer (some c))) n op := by
    have hp : (w.setParser n ((w.parsers n).startStreamConsumer (some c))).processing = w.processing := by
      unfold World.processing
      show (match w.station.callbacks.configData with | none => false | some n' => _) = _
      cases hc : w.station.callbacks.configData with
      | none => rfl
      | some m =>
        simp only [World.setParser]
        rw [if_neg (fun e => hreg (by rw [hc, e]))]
    cases hr with
    | engineList o => exact .engineList o
    | engine e hk ht hp' => exact .engine e hk ht (by rw [hp]; exact hp')
    | shortInfo i hk ht hp' => exact .shortInfo i hk ht (by rw [hp]; exact hp')
  obtain ⟨v, a1, -, a3, a4, -⟩ := hr'.effect h1 (show _ = some tx from htx)
  have hnew : v.parsers n = ((w.parsers n).startStreamConsumer (some c)).startStream := by
    rw [a4, if_neg (show ¬((w.setParser n ((w.parsers n).startStreamConsumer (some c))).station.callbacks.configData = some n) from hreg),
      World.setParser_get]
  have hinv := start_sinv _ s (attach_sinv _ s hs (some c))
  rw [← hnew] at hinv
  obtain ⟨q, calls, s', g1, -, -, g4, g5⟩ := packets_run (fs.map (·.data)) (v.parsers n) s hinv []
    (by rw [hnew]; exact ⟨fun _ => rfl, by intro e; (cases e), by intro e; (cases e), fun _ => rfl⟩)
  have hcons : (v.parsers n).consumer = some c := by rw [hnew]; rfl
  have g1' : streamRun (v.parsers n) (fs.map (fun f => .add f.data)) = .ok (q, calls) := by
    rw [← g1, List.map_map]; rfl
  have hrun := World.frames_run fs v n (by rw [a3]) s hinv (fun f hf => ⟨(hfs f hf).1, (hfs f hf).2⟩) q calls g1'
  have hst : v.station.callbacks.tx = some tx ∧ v.station.callbacks.engine.isSome = true := by
    rw [a3]; exact ⟨htx, hen⟩
  have hcomplete : ∀ m, (m, Notice.complete) ∈ calls.map noticeOf ↔ m = c ∧ ∃ pre, pre <+: fs.map (·.data) ∧ Whole pre := by
    intro m
    rw [g4, hcons, Option.some.injEq]
    constructor
    · rintro ⟨e, pre, -, k1, k2⟩; exact ⟨e.symm, pre, k1, k2⟩
    · rintro ⟨e, pre, k1, k2⟩; exact ⟨e.symm, pre, by rintro rfl; exact k2, k1, k2⟩
  refine ⟨v, ?_, ?_⟩
  · rw [World.run_cons]
    show (World.step (w.setParser n ((w.parsers n).startStreamConsumer (some c))) op).bind _ = _
    rw [a1]
    rfl
  · intro u hu
    obtain ⟨i1, i2⟩ := C61_invisible ops v tx hst.1 hst.2 (busy_not_begin hops)
    rw [hops] at i1 i2
    cases hq : v.run (fs.map .handle) with
    | error e => rw [i2 e hq] at hu; cases hu
    | ok u' =>
      obtain ⟨x, j1, j2⟩ := i1 u' hq
      rw [hu] at j1
      cases j1
      rw [hrun] at hq
      obtain ⟨new, k1, k2, k3, k4⟩ := callConsumers_told calls _ _ hq
      refine ⟨new, ?_, ?_, ?_, ?_⟩
      · rw [j2.told, k1, List.filter_append]
        congr 1
        rw [List.filter_eq_self]
        intro e he
        rw [k4 e he]; rfl
      · rw [k2, notice_complete, hcomplete]
        simp
      · rw [k2, notice_aborted, g5, hcons]
        exact ⟨fun g => ⟨g.2.2.1, g.2.2.2⟩, fun g => ⟨rfl, trivial, g.1, g.2⟩⟩
      · intro cb m seen he
        obtain ⟨⟨m', a⟩, e1, e2, e3⟩ := k3 cb m true seen he
        cases e2
        cases a with
        | consume _ _ _ => cases e3
        | aborted => cases e3
        | complete => exact (hcomplete _).mp (notice_complete.mp e1)

/-! ## Cases -/

theorem example_whole : Whole (exampleFirst 27377#16 :: examplePackets) :=
  ⟨C40_case.1, C40_case.2.1, C40_case.2.2.1, Or.inr (by rw [C40_case.2.2.2.1]; exact examplePackets_crc)⟩

/-- C62: the stream without its last packet; without its first packet; and without its last packet, followed by the first packet of
another stream. -/
example :
    outcome (streamRun exampleStream (.start :: [exampleFirst 27377#16, examplePackets[0]].map .add)) =
      some (.WAITING_DATA_PACKET, some 3, []) ∧
    outcome (streamRun exampleStream (.start :: examplePackets.map .add)) = some (.IDLE, none, [(3, .aborted)]) ∧
    outcome (streamRun exampleStream (.start :: ([exampleFirst 27377#16, examplePackets[0]] ++ [exampleFirst 5#16]).map .add)) =
      some (.IDLE, none, [(3, .aborted)]) ∧
    [exampleFirst 27377#16, examplePackets[0]].Sublist (exampleFirst 27377#16 :: examplePackets) :=
  ⟨by decide +kernel, by decide +kernel, by decide +kernel, by decide⟩

/-- A packet, and one that differs from it by the generator polynomial. -/
def blank : Data := { dlc := 8#8, b0 := 32#8, b1 := 32#8, b2 := 32#8, b3 := 32#8, b4 := 32#8, b5 := 32#8, b6 := 32#8, b7 := 32#8 }
def blank' : Data := { blank with b5 := 33#8, b6 := 48#8, b7 := 1#8 }

/-- C62 says no more than it seems: a checksum of 16 bits does not notice every repetition. Here the last packet is lost and the one
before it arrives twice; the payload is a different one, and the stream is reported complete. -/
theorem C62_repeat_case :
    Whole [exampleFirst (crcOf (payload [blank, blank'])), blank, blank'] ∧
    Whole [exampleFirst (crcOf (payload [blank, blank'])), blank, blank] ∧ payload [blank, blank'] ≠ payload [blank, blank] ∧
    outcome (streamRun exampleStream (download (exampleFirst (crcOf (payload [blank, blank']))) [blank, blank])) =
      some (.STREAM_DONE, some 3, [(3, .complete)]) := by
  refine ⟨⟨Or.inl rfl, by unfold AreData; decide, by decide +kernel, Or.inr ?_⟩, ⟨Or.inl rfl, by unfold AreData; decide, by decide +kernel, Or.inr ?_⟩,
    by decide +kernel, by decide +kernel⟩
  · rw [isCrcOf_iff]; decide +kernel
  · rw [isCrcOf_iff]; decide +kernel

/-- C62 at a station that meets the hypotheses: the first frame of the stream arrives twice, the data frame then comes too late. -/
example :
    Sound (World.new ⟨32⟩ (fun _ => .app) (fun _ => Locomotive.construct [])) ∧
    (match busyWorld.run ([.parserStart 0 (some 7), .requestShortInfo { availability := .NAME_KNOWN, name := str "x" ++ [0#8] } (some 0)] ++
        [.handle caseFrames.1, .sendVelocity { uid := 5#32 } 9#16, .handle caseFrames.1] ++ caseFrames.2.map .handle) with
      | .ok u => u.log.filter (fun e => !isCall e)
      | .error _ => []) = [.consumer ⟨7, .aborted⟩] :=
  ⟨C58_start _ _ _, by decide +kernel⟩

end RR32
