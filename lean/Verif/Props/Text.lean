import Verif.Proofs.TextParser
import Verif.Proofs.Document

/-! # C33 to C39: the text parser -/

set_option autoImplicit false

namespace RR32

open Spec

/-- The public calls on a text parser. -/
inductive TextOp where
  | add (input : BufferManager)
  | reset
  | setConsumer (c : Option Nat)

/-- The effect of a call: the new parser and the calls on consumers. -/
def textStep (p : TextParser) : TextOp → Res (TextParser × List ParseEvent)
  | .add input => p.addText input
  | .reset => do
      let q ← p.reset
      .ok (q, [])
  | .setConsumer c => .ok (p.setConsumer c, [])

/-- The effect of a sequence of calls. -/
def textRun (p : TextParser) : List TextOp → Res (TextParser × List ParseEvent)
  | [] => .ok (p, [])
  | op :: ops => do
      let (q, evs) ← textStep p op
      let (r, evs') ← textRun q ops
      .ok (r, evs ++ evs')

/-- A call with a sound buffer. -/
def TextOp.Ok : TextOp → Prop
  | .add input => BufOk input
  | _ => True

/-- A parser reachable by sound calls from the constructor, on memory with any content. -/
def ReachableText (p : TextParser) : Prop :=
  ∃ a b c d p0 ops evs, a.length = 31 ∧ b.length = 11 ∧ c.length = 11 ∧ d.length = 26 ∧ TextParser.construct a b c d = .ok p0 ∧
    (∀ op ∈ ops, op.Ok) ∧ textRun p0 ops = .ok (p, evs)

/-- What a call tells which consumer. -/
def told (e : ParseEvent) : Nat × Entry := (e.consumer, { sect := content e.sect, key := content e.key, value := content e.value })

/-- Entries told to a consumer, if there is one. -/
def tell (c : Option Nat) (es : List Entry) : List (Nat × Entry) :=
  match c with
  | none => []
  | some n => es.map (fun e => (n, e))

theorem told_toEvents (c : Option Nat) (es : List Entry) : (toEvents c es).map told = tell c es := by
  cases c with
  | none => simp [toEvents, toEvent, tell]
  | some n =>
    induction es with
    | nil => rfl
    | cons e es ih =>
      simp only [toEvents, toEvent, tell, List.flatMap_cons, List.map_cons, List.singleton_append] at *
      rw [ih]
      simp [told, ofc.content_eq]

theorem tell_append (c : Option Nat) (a b : List Entry) : tell c (a ++ b) = tell c a ++ tell c b := by
  cases c <;> simp [tell]

/-- A parser between calls. -/
structure Rep (p : TextParser) (s : Reader) (c : Option Nat) : Prop where
  eq : p = conc s c []
  fits : s.Fits
  honest : s.Honest
  clean : s.Clean
  tidy : s.Tidy

theorem construct_rep (a b c d : List Byte) (ha : a.length = 31) (hb : b.length = 11) (hc : c.length = 11) (hd : d.length = 26) :
    TextParser.construct a b c d = .ok (conc .start none []) := by
  simp only [TextParser.construct, TextParser.reset, BufferManager.construct, bind, Except.bind, TextParser.kBufferLength,
    TextParser.kSectionLength, TextParser.kKeyLength, TextParser.kValueLength]
  rw [ofc.erase_any _ (show _ = 31 from ha), ofc.erase_any _ (show _ = 11 from hb), ofc.erase_any _ (show _ = 11 from hc),
    ofc.erase_any _ (show _ = 26 from hd)]
  rfl

theorem reset_conc (s : Reader) (hs : s.Fits) (c : Option Nat) : (conc s c []).reset = .ok (conc .start none []) := by
  simp only [TextParser.reset, conc, bind, Except.bind]
  rw [ofc.erase (by simp), ofc.erase (cap := 11) hs.sect, ofc.erase (cap := 11) hs.key, ofc.erase (cap := 26) hs.value]
  rfl

theorem rep_start (c : Option Nat) : Rep (conc .start c []) .start c := ⟨rfl, Reader.fits_start, (by intro h; cases h), clean_start, tidy_start⟩

/-- One call on a parser between calls. -/
theorem step_rep (p : TextParser) (s : Reader) (c : Option Nat) (h : Rep p s c) (op : TextOp) (hop : op.Ok) :
    ∃ q evs s' c', textStep p op = .ok (q, evs) ∧ Rep q s' c' := by
  obtain ⟨rfl, h1, h2, h3, h4⟩ := h
  cases op with
  | add input =>
    exact ⟨_, _, _, _, addText_conc s h1 c input hop, rfl, Reader.fits_chunk s h1 _, Reader.honest_chunk s h2 _,
      (clean_chunk s h3 h1 _).1, tidy_chunk s h4 _⟩
  | reset =>
    exact ⟨_, _, .start, none, by simp only [textStep, reset_conc s h1 c, bind, Except.bind]; rfl, rep_start none⟩
  | setConsumer c' => exact ⟨_, _, s, c', rfl, rfl, h1, h2, h3, h4⟩

theorem run_rep (p : TextParser) (s : Reader) (c : Option Nat) (h : Rep p s c) (ops : List TextOp) (hops : ∀ op ∈ ops, op.Ok) :
    ∃ q evs s' c', textRun p ops = .ok (q, evs) ∧ Rep q s' c' := by
  induction ops generalizing p s c with
  | nil => exact ⟨p, [], s, c, rfl, h⟩
  | cons op ops ih =>
    obtain ⟨q, evs, s', c', h1, h2⟩ := step_rep p s c h op (hops op (List.mem_cons_self ..))
    obtain ⟨r, evs', s'', c'', h3, h4⟩ := ih q s' c' h2 (fun o ho => hops o (List.mem_cons_of_mem _ ho))
    exact ⟨r, evs ++ evs', s'', c'', by simp only [textRun, h1, h3, bind, Except.bind], h4⟩

theorem reachable_rep (p : TextParser) (h : ReachableText p) : ∃ s c, Rep p s c := by
  obtain ⟨a, b, c, d, p0, ops, evs, ha, hb, hc, hd, h0, hops, hr⟩ := h
  rw [construct_rep a b c d ha hb hc hd] at h0
  cases h0
  obtain ⟨q, evs', s', c', h1, h2⟩ := run_rep _ _ _ (rep_start none) ops hops
  rw [hr] at h1
  cases h1
  exact ⟨s', c', h2⟩

/-! ## C33 -/

/-- C33. Every call with a sound buffer on every reachable parser ends without a fault, leaves the work buffer empty, and the result is
again reachable. -/
theorem C33_total (p : TextParser) (h : ReachableText p) (op : TextOp) (hop : op.Ok) :
    ∃ q evs, textStep p op = .ok (q, evs) ∧ q.buffer.len = 0 ∧ ReachableText q := by
  obtain ⟨s, c, hr⟩ := reachable_rep p h
  obtain ⟨q, evs, s', c', h1, h2⟩ := step_rep p s c hr op hop
  refine ⟨q, evs, h1, by rw [h2.eq]; rfl, ?_⟩
  obtain ⟨a, b, c, d, p0, ops, evs0, ha, hb, hc, hd, h0, hops, hrun⟩ := h
  refine ⟨a, b, c, d, p0, ops ++ [op], evs0 ++ evs, ha, hb, hc, hd, h0, ?_, ?_⟩
  · intro o ho
    rcases List.mem_append.mp ho with ho | ho
    · exact hops o ho
    · rw [List.mem_singleton.mp ho]; exact hop
  · clear h0 hops
    induction ops generalizing p0 evs0 with
    | nil =>
      simp only [textRun] at hrun
      cases hrun
      simp only [List.nil_append, textRun, h1, bind, Except.bind, List.append_nil]
    | cons o ops ih =>
      simp only [textRun, bind, Except.bind] at hrun
      rw [List.cons_append]
      simp only [textRun, bind, Except.bind]
      cases hs : textStep p0 o with
      | error e => rw [hs] at hrun; cases hrun
      | ok v =>
        rw [hs] at hrun
        obtain ⟨p1, e1⟩ := v
        simp only at hrun ⊢
        cases hs2 : textRun p1 ops with
        | error e => rw [hs2] at hrun; cases hrun
        | ok v2 =>
          rw [hs2] at hrun
          obtain ⟨p2, e2⟩ := v2
          simp only at hrun
          cases hrun
          rw [ih p1 e2 hs2]
          simp

/-- C33. The constructor gives a reachable parser with an empty work buffer, whatever the memory held. -/
theorem C33_construct (a b c d : List Byte) (ha : a.length = 31) (hb : b.length = 11) (hc : c.length = 11) (hd : d.length = 26) :
    ∃ p, TextParser.construct a b c d = .ok p ∧ p.buffer.len = 0 ∧ ReachableText p :=
  ⟨_, construct_rep a b c d ha hb hc hd, rfl, a, b, c, d, _, [], [], ha, hb, hc, hd, construct_rep a b c d ha hb hc hd, by simp, rfl⟩

/-! ## Feeding text -/

/-- Feeding buffers one after the other. -/
def feed (p : TextParser) (inputs : List BufferManager) : Res (TextParser × List ParseEvent) := textRun p (inputs.map .add)

theorem feed_conc (s : Reader) (hs : s.Fits) (c : Option Nat) (inputs : List BufferManager) (hi : ∀ i ∈ inputs, BufOk i) :
    feed (conc s c []) inputs =
      .ok (conc (s.chunks (inputs.map content)).1 c [], toEvents c (s.chunks (inputs.map content)).2) := by
  induction inputs generalizing s with
  | nil => rfl
  | cons i is ih =>
    have h1 := addText_conc s hs c i (hi i (List.mem_cons_self ..))
    have h2 := ih (s.chunk (content i)).1 (Reader.fits_chunk s hs _) (fun j hj => hi j (List.mem_cons_of_mem _ hj))
    simp only [feed, List.map_cons, textRun, textStep, h1, bind, Except.bind] at *
    rw [h2]
    simp only [Reader.chunks, toEvents_append]

theorem chunks_failed (cs : List (List Byte)) :
    Reader.failed.chunks cs = (Reader.failed, List.replicate cs.length Entry.error) := by
  induction cs with
  | nil => rfl
  | cons c cs ih =>
    have e : Reader.failed.chunk c = (Reader.failed, [Entry.error]) := by simp [Reader.chunk, Reader.failed]
    simp only [Reader.chunks, e, ih, List.length_cons]
    rfl

/-- Chunks of legal size: what the bytes say, and then one error per later chunk. -/
theorem chunks_bytes (s : Reader) (hh : s.Honest) (hm : s.mode ≠ .error) (cs : List (List Byte)) (hc : ∀ c ∈ cs, c.length ≤ maxChunk) :
    ∃ k, s.chunks cs = ((s.bytes cs.flatten).1, (s.bytes cs.flatten).2 ++ List.replicate k Entry.error) ∧
      ((s.bytes cs.flatten).1.mode ≠ .error → k = 0) := by
  induction cs generalizing s with
  | nil => exact ⟨0, by simp [Reader.chunks, Reader.bytes], fun _ => rfl⟩
  | cons c cs ih =>
    have hlen := hc c (List.mem_cons_self ..)
    have e : s.chunk c = s.bytes c := by rw [Reader.chunk, if_neg]; simp [hm]; omega
    have hcs : ∀ d ∈ cs, d.length ≤ maxChunk := fun d hd => hc d (List.mem_cons_of_mem _ hd)
    rw [List.flatten_cons, Reader.bytes_append]
    by_cases he : (s.bytes c).1.mode = .error
    · have hf := Reader.honest_bytes s hh c he
      refine ⟨cs.length, ?_, ?_⟩
      · simp only [Reader.chunks, e, hf, chunks_failed, Reader.bytes_failed, List.append_nil]
      · simp only [hf, Reader.bytes_failed]
        intro h; exact absurd rfl h
    · obtain ⟨k, h1, h2⟩ := ih (s.bytes c).1 (Reader.honest_bytes s hh c) he hcs
      refine ⟨k, ?_, h2⟩
      simp only [Reader.chunks, e, h1, List.append_assoc]

/-- A reader that gives up says so last. -/
theorem bytes_last (s : Reader) (hm : s.mode ≠ .error) (l : List Byte) (he : (s.bytes l).1.mode = .error) :
    (s.bytes l).2.getLast? = some Entry.error := by
  induction l generalizing s with
  | nil => exact absurd he hm
  | cons b l ih =>
    rw [Reader.bytes_cons] at he ⊢
    by_cases hb : (s.byte b).1.mode = .error
    · have hs : (s.byte b).2 = [Entry.error] := by
        revert hb
        unfold Reader.byte
        repeat' split
        all_goals first | (intro _; rfl) | (intro h; simp_all)
      rw [Reader.bytes_error _ hb, hs]
      rfl
    · have := ih _ hb he
      simp [this]

/-! ## C34 -/

/-- C34. Two ways of cutting the same text into chunks of at most 30 bytes: same final parser, same events up to and including the first
error; if there is none, the same events. -/
theorem C34_chunking (p : TextParser) (hp : ReachableText p) (hne : p.state ≠ .ERROR) (is js : List BufferManager)
    (hi : ∀ i ∈ is, BufOk i ∧ (content i).length ≤ 30) (hj : ∀ j ∈ js, BufOk j ∧ (content j).length ≤ 30)
    (heq : (is.map content).flatten = (js.map content).flatten) :
    ∃ q evs1 evs2 common k1 k2, feed p is = .ok (q, evs1) ∧ feed p js = .ok (q, evs2) ∧
      evs1.map told = common ++ List.replicate k1 ((p.consumer.getD 0), Entry.error) ∧
      evs2.map told = common ++ List.replicate k2 ((p.consumer.getD 0), Entry.error) ∧
      (q.state ≠ .ERROR → k1 = 0 ∧ k2 = 0) ∧
      (p.consumer = none → evs1 = [] ∧ evs2 = []) ∧
      (∀ n, q.state = .ERROR → p.consumer = some n → common.getLast? = some (n, Entry.error)) := by
  obtain ⟨s, c, rfl, hf, hh, -, -⟩ := reachable_rep p hp
  have hm : s.mode ≠ .error := by intro e; exact hne (by simp [conc, e, stateOf])
  have hc : (conc s c []).consumer = c := rfl
  have key : ∀ (is : List BufferManager), (∀ i ∈ is, BufOk i ∧ (content i).length ≤ 30) →
      ∃ k, feed (conc s c []) is = .ok (conc (s.bytes (is.map content).flatten).1 c [],
          toEvents c ((s.bytes (is.map content).flatten).2 ++ List.replicate k Entry.error)) ∧
        ((s.bytes (is.map content).flatten).1.mode ≠ .error → k = 0) := by
    intro is hi
    obtain ⟨k, h1, h2⟩ := chunks_bytes s hh hm (is.map content) (by
      intro d hd
      obtain ⟨i, hmem, rfl⟩ := List.mem_map.mp hd
      exact (hi i hmem).2)
    refine ⟨k, ?_, h2⟩
    rw [feed_conc s hf c is (fun i h => (hi i h).1), h1]
  obtain ⟨k1, e1, z1⟩ := key is hi
  obtain ⟨k2, e2, z2⟩ := key js hj
  rw [← heq] at e2 z2
  have hstate : ∀ r : Reader, (conc r c []).state = .ERROR ↔ r.mode = .error := by
    intro r; simp only [conc]; cases r.mode <;> simp [stateOf]
  cases c with
  | none =>
    exact ⟨_, _, _, [], 0, 0, e1, e2, by rw [told_toEvents]; rfl, by rw [told_toEvents]; rfl, fun _ => ⟨rfl, rfl⟩,
      fun _ => ⟨by simp [toEvents, toEvent], by simp [toEvents, toEvent]⟩, by intro n _ h; cases h⟩
  | some n =>
    refine ⟨_, _, _, tell (some n) (s.bytes (is.map content).flatten).2, k1, k2, e1, e2, ?_, ?_, ?_, ?_, ?_⟩
    · rw [told_toEvents, tell_append]; simp [tell, hc]
    · rw [told_toEvents, tell_append]; simp [tell, hc]
    · intro h
      have : (s.bytes (is.map content).flatten).1.mode ≠ .error := fun e => h ((hstate _).mpr e)
      exact ⟨z1 this, z2 this⟩
    · intro h; cases h
    · intro m h hm'
      cases hm'
      have := bytes_last s hm _ ((hstate _).mp h)
      simp [tell, this]

/-! ## C35 -/

theorem stateOf_error (r : Reader) (c : Option Nat) (w : List Byte) : (conc r c w).state = .ERROR ↔ r.mode = .error := by
  simp only [conc]; cases r.mode <;> simp [stateOf]

theorem stateOf_look (r : Reader) (c : Option Nat) (w : List Byte) :
    (conc r c w).state = .LOOKING_FOR_KEY_OR_SECTION_START ↔ r.mode = .look := by
  simp only [conc]; cases r.mode <;> simp [stateOf]

theorem content_sect (r : Reader) (c : Option Nat) (w : List Byte) : content (conc r c w).sect = r.sect := by
  simp [conc, ofc.content_eq]

/-- Feeding chunks of legal size to a parser between lines. -/
theorem feed_ready (p : TextParser) (hp : ReachableText p) (hl : p.state = .LOOKING_FOR_KEY_OR_SECTION_START)
    (inputs : List BufferManager) (hi : ∀ i ∈ inputs, BufOk i ∧ (content i).length ≤ 30) :
    ∃ k, feed p inputs = .ok (conc ((Reader.ready (content p.sect)).bytes (inputs.map content).flatten).1 p.consumer [],
        toEvents p.consumer (((Reader.ready (content p.sect)).bytes (inputs.map content).flatten).2 ++ List.replicate k Entry.error)) ∧
      (((Reader.ready (content p.sect)).bytes (inputs.map content).flatten).1.mode ≠ .error → k = 0) := by
  obtain ⟨s, c, rfl, hf, hh, -, ht⟩ := reachable_rep p hp
  have hm := (stateOf_look s c []).mp hl
  have hs := tidy_ready s ht hm
  obtain ⟨k, h1, h2⟩ := chunks_bytes s hh (by rw [hm]; simp) (inputs.map content) (by
    intro d hd
    obtain ⟨i, hmem, rfl⟩ := List.mem_map.mp hd
    exact (hi i hmem).2)
  rw [content_sect, ← hs]
  refine ⟨k, ?_, h2⟩
  rw [feed_conc s hf c inputs (fun i h => (hi i h).1), h1]
  rfl

/-- C35. Round trip: a document of lines that fit, cut into chunks of at most 30 bytes in any way and fed to a parser between lines,
tells the consumer the document's entries in order and nothing else, and leaves the parser between lines in the document's last section. -/
theorem C35_round_trip (p : TextParser) (hp : ReachableText p) (hl : p.state = .LOOKING_FOR_KEY_OR_SECTION_START)
    (items : List Item) (hw : ∀ i ∈ items, i.WellFormed) (hfit : ∀ i ∈ items, i.Fits) (inputs : List BufferManager)
    (hi : ∀ i ∈ inputs, BufOk i ∧ (content i).length ≤ 30) (heq : (inputs.map content).flatten = render items) :
    ∃ q evs, feed p inputs = .ok (q, evs) ∧ evs.map told = tell p.consumer (entriesOf (content p.sect) items) ∧
      q.state = .LOOKING_FOR_KEY_OR_SECTION_START ∧ content q.sect = sectionOf (content p.sect) items ∧
      content q.key = [] ∧ content q.value = [] ∧ q.consumer = p.consumer := by
  obtain ⟨k, h1, h2⟩ := feed_ready p hp hl inputs hi
  rw [heq, ready_render _ items hw hfit] at h1 h2
  cases h2 (by simp [Reader.ready])
  refine ⟨_, _, h1, ?_, rfl, ?_, rfl, rfl, rfl⟩
  · simp [told_toEvents]
  · rw [content_sect]; rfl

/-- C35 for a new parser with a consumer. -/
theorem C35_fresh (a b c d : List Byte) (ha : a.length = 31) (hb : b.length = 11) (hc : c.length = 11) (hd : d.length = 26)
    (n : Nat) (items : List Item) (hw : ∀ i ∈ items, i.WellFormed) (hfit : ∀ i ∈ items, i.Fits) (inputs : List BufferManager)
    (hi : ∀ i ∈ inputs, BufOk i ∧ (content i).length ≤ 30) (heq : (inputs.map content).flatten = render items) :
    ∃ p q evs, TextParser.construct a b c d = .ok p ∧ feed (p.setConsumer (some n)) inputs = .ok (q, evs) ∧
      evs.map told = (entriesOf [] items).map (fun e => (n, e)) ∧ q.state = .LOOKING_FOR_KEY_OR_SECTION_START := by
  have hcon := construct_rep a b c d ha hb hc hd
  have hp : ReachableText ((conc .start none []).setConsumer (some n)) :=
    ⟨a, b, c, d, _, [.setConsumer (some n)], [], ha, hb, hc, hd, hcon, by intro o ho; rw [List.mem_singleton.mp ho]; trivial, rfl⟩
  obtain ⟨q, evs, h1, h2, h3, -⟩ := C35_round_trip _ hp rfl items hw hfit inputs hi heq
  refine ⟨_, q, evs, hcon, h1, ?_, h3⟩
  rw [h2]
  rfl

/-! ## C36 -/

/-- C36. Every byte sequence is a sequence of lines and a tail, so the following theorems speak about all streams. -/
theorem C36_all_streams (l : List Byte) :
    ∃ items tail, l = render items ++ Tail.render tail ∧ (∀ i ∈ items, i.WellFormed) ∧ tail.WellFormed := decompose l

theorem chunks_oversized (s : Reader) (cs : List (List Byte)) (h : ∃ c ∈ cs, maxChunk < c.length) : (s.chunks cs).1 = Reader.failed := by
  induction cs generalizing s with
  | nil => obtain ⟨c, hc, -⟩ := h; cases hc
  | cons d cs ih =>
    obtain ⟨c, hc, hlen⟩ := h
    rcases List.mem_cons.mp hc with e | e
    · have : s.chunk d = (Reader.failed, [Entry.error]) := by rw [Reader.chunk, if_pos (Or.inl (by rw [← e]; exact hlen))]
      simp only [Reader.chunks, this, chunks_failed]
    · exact ih _ ⟨c, e, hlen⟩

theorem exists_first {α : Type} (P : α → Prop) (l : List α) (h : ¬∀ x ∈ l, P x) :
    ∃ a x b, l = a ++ x :: b ∧ (∀ y ∈ a, P y) ∧ ¬P x := by
  induction l with
  | nil => exact absurd (by simp) h
  | cons x l ih =>
    by_cases hx : P x
    · have : ¬∀ y ∈ l, P y := by
        intro hl
        apply h
        intro y hy
        rcases List.mem_cons.mp hy with e | e
        · rw [e]; exact hx
        · exact hl y e
      obtain ⟨a, y, b, e, h1, h2⟩ := ih this
      refine ⟨x :: a, y, b, by rw [e]; rfl, ?_, h2⟩
      intro z hz
      rcases List.mem_cons.mp hz with e | e
      · rw [e]; exact hx
      · exact h1 z e
    · exact ⟨[], x, l, rfl, by simp, hx⟩

theorem render_append (a b : List Item) : render (a ++ b) = render a ++ render b := by simp [render]

/-- The reader gives up on a stream exactly if a part is too long. -/
theorem ready_error_iff (cur : List Byte) (items : List Item) (tail : Tail) (hw : ∀ i ∈ items, i.WellFormed) (ht : tail.WellFormed) :
    ((Reader.ready cur).bytes (render items ++ tail.render)).1.mode = .error ↔ (∃ i ∈ items, ¬i.Fits) ∨ ¬tail.Fits := by
  by_cases h1 : ∀ i ∈ items, i.Fits
  · rw [Reader.bytes_append, ready_render cur items hw h1]
    have hno : ¬∃ i ∈ items, ¬i.Fits := by rintro ⟨i, hi, hn⟩; exact hn (h1 i hi)
    by_cases h2 : tail.Fits
    · rw [ready_tail _ tail ht h2]
      constructor
      · intro h; cases tail <;> cases h
      · rintro (h | h)
        · exact absurd h hno
        · exact absurd h2 h
    · rw [ready_tail_bad _ tail ht h2]
      exact ⟨fun _ => Or.inr h2, fun _ => rfl⟩
  · obtain ⟨a, x, b, e, hga, hx⟩ := exists_first _ items h1
    have hmem : ∀ i ∈ a ++ x :: b, i.WellFormed := by rw [← e]; exact hw
    have : render items ++ tail.render = render a ++ (x.render ++ (render b ++ tail.render)) := by
      rw [e, render_append]; simp [render]
    rw [this, ready_render_bad cur a x _ (fun i hi => hmem i (List.mem_append.mpr (Or.inl hi))) hga
      (hmem x (List.mem_append.mpr (Or.inr (List.mem_cons_self ..)))) hx]
    exact ⟨fun _ => Or.inl ⟨x, by rw [e]; simp, hx⟩, fun _ => rfl⟩

/-- C36. The parser ends in ERROR exactly if a chunk exceeds 30 bytes or a section, key or value of the stream exceeds 11, 11, 26. -/
theorem C36_exactly (p : TextParser) (hp : ReachableText p) (hl : p.state = .LOOKING_FOR_KEY_OR_SECTION_START)
    (items : List Item) (tail : Tail) (hw : ∀ i ∈ items, i.WellFormed) (ht : tail.WellFormed) (inputs : List BufferManager)
    (hi : ∀ i ∈ inputs, BufOk i) (heq : (inputs.map content).flatten = render items ++ tail.render) :
    ∃ q evs, feed p inputs = .ok (q, evs) ∧
      (q.state = .ERROR ↔ (∃ i ∈ inputs, 30 < (content i).length) ∨ (∃ i ∈ items, ¬i.Fits) ∨ ¬tail.Fits) := by
  by_cases hbig : ∃ i ∈ inputs, 30 < (content i).length
  · obtain ⟨s, c, rfl, hf, hh, -, -⟩ := reachable_rep p hp
    refine ⟨_, _, feed_conc s hf c inputs hi, ?_⟩
    rw [stateOf_error, chunks_oversized s _ (by
      obtain ⟨i, h1, h2⟩ := hbig
      exact ⟨content i, List.mem_map.mpr ⟨i, h1, rfl⟩, h2⟩)]
    exact ⟨fun _ => Or.inl hbig, fun _ => rfl⟩
  · obtain ⟨k, h1, -⟩ := feed_ready p hp hl inputs (fun i h => ⟨hi i h, by
      by_cases h' : (content i).length ≤ 30
      · exact h'
      · exact absurd ⟨i, h, by omega⟩ hbig⟩)
    refine ⟨_, _, h1, ?_⟩
    rw [stateOf_error, heq, ready_error_iff _ items tail hw ht]
    exact ⟨Or.inr, fun h => h.resolve_left hbig⟩

/-- C36. If the first part that is too long is in the line `bad`: the consumer is told the entries before it, then errors, at least
one; nothing else. -/
theorem C36_reported (p : TextParser) (hp : ReachableText p) (hl : p.state = .LOOKING_FOR_KEY_OR_SECTION_START)
    (good : List Item) (bad : Item) (rest : List Byte) (hw : ∀ i ∈ good, i.WellFormed) (hfit : ∀ i ∈ good, i.Fits)
    (hb : bad.WellFormed) (hnb : ¬bad.Fits) (inputs : List BufferManager) (hi : ∀ i ∈ inputs, BufOk i ∧ (content i).length ≤ 30)
    (heq : (inputs.map content).flatten = render good ++ (bad.render ++ rest)) :
    ∃ q evs k, feed p inputs = .ok (q, evs) ∧ q.state = .ERROR ∧
      evs.map told = tell p.consumer (entriesOf (content p.sect) good ++ List.replicate (k + 1) Entry.error) := by
  obtain ⟨k, h1, -⟩ := feed_ready p hp hl inputs hi
  rw [heq, ready_render_bad _ good bad rest hw hfit hb hnb] at h1
  refine ⟨_, _, k, h1, rfl, ?_⟩
  rw [told_toEvents, List.append_assoc]
  rfl

/-- C36. The same if the part that is too long is in the tail. -/
theorem C36_reported_tail (p : TextParser) (hp : ReachableText p) (hl : p.state = .LOOKING_FOR_KEY_OR_SECTION_START)
    (good : List Item) (bad : Tail) (hw : ∀ i ∈ good, i.WellFormed) (hfit : ∀ i ∈ good, i.Fits)
    (hb : bad.WellFormed) (hnb : ¬bad.Fits) (inputs : List BufferManager) (hi : ∀ i ∈ inputs, BufOk i ∧ (content i).length ≤ 30)
    (heq : (inputs.map content).flatten = render good ++ bad.render) :
    ∃ q evs k, feed p inputs = .ok (q, evs) ∧ q.state = .ERROR ∧
      evs.map told = tell p.consumer (entriesOf (content p.sect) good ++ List.replicate (k + 1) Entry.error) := by
  obtain ⟨k, h1, -⟩ := feed_ready p hp hl inputs hi
  rw [heq, Reader.bytes_append, ready_render _ good hw hfit] at h1
  simp only [ready_tail_bad _ bad hb hnb] at h1
  refine ⟨_, _, k, h1, rfl, ?_⟩
  rw [told_toEvents, List.append_assoc]
  rfl

/-- C36. A chunk of more than 30 bytes is an error in every state; the consumer is told so once. -/
theorem C36_oversized (p : TextParser) (hp : ReachableText p) (input : BufferManager) (hi : BufOk input) (h : 30 < (content input).length) :
    ∃ q evs, p.addText input = .ok (q, evs) ∧ q.state = .ERROR ∧ evs.map told = tell p.consumer [Entry.error] := by
  obtain ⟨s, c, rfl, hf, hh, -, -⟩ := reachable_rep p hp
  have e : s.chunk (content input) = (Reader.failed, [Entry.error]) := by rw [Reader.chunk, if_pos (show (content input).length > maxChunk ∨ _ from Or.inl h)]
  refine ⟨_, _, addText_conc s hf c input hi, ?_, ?_⟩
  · rw [e]; rfl
  · rw [e, told_toEvents]; rfl

/-- C36. Once in ERROR: every further chunk, also an empty one, changes nothing and gives one more error event. -/
theorem C36_sticky (p : TextParser) (hp : ReachableText p) (he : p.state = .ERROR) (input : BufferManager) (hi : BufOk input) :
    ∃ evs, p.addText input = .ok (p, evs) ∧ evs.map told = tell p.consumer [Entry.error] := by
  obtain ⟨s, c, rfl, hf, hh, -, -⟩ := reachable_rep p hp
  have hs : s = Reader.failed := hh ((stateOf_error s c []).mp he)
  subst hs
  have e : Reader.failed.chunk (content input) = (Reader.failed, [Entry.error]) := by rw [Reader.chunk, if_pos (show _ ∨ Reader.failed.mode = .error from Or.inr rfl)]
  refine ⟨toEvents c [Entry.error], ?_, told_toEvents ..⟩
  rw [addText_conc _ hf c input hi, e]

/-- C36 and C39. Reset makes every reachable parser, in particular one in ERROR, equal to a new one, whatever memory that one has. -/
theorem C39_text (p : TextParser) (hp : ReachableText p) (a b c d : List Byte) (ha : a.length = 31) (hb : b.length = 11)
    (hc : c.length = 11) (hd : d.length = 26) : p.reset = TextParser.construct a b c d := by
  obtain ⟨s, c, rfl, hf, -, -, -⟩ := reachable_rep p hp
  rw [reset_conc s hf, construct_rep a b _ d ha hb hc hd]

/-! ## C37 -/

/-- C37. What a consumer is told by any call on any reachable parser is within the sizes and free of the delimiters. -/
theorem C37_clean (p : TextParser) (hp : ReachableText p) (op : TextOp) (hop : op.Ok) (q : TextParser) (evs : List ParseEvent)
    (h : textStep p op = .ok (q, evs)) (e : ParseEvent) (he : e ∈ evs) :
    (content e.sect).length ≤ 11 ∧ (content e.key).length ≤ 11 ∧ (content e.value).length ≤ 26 ∧
      ch ']' ∉ content e.sect ∧ ch '=' ∉ content e.key ∧ ch '\n' ∉ content e.key ∧ ch '\n' ∉ content e.value := by
  obtain ⟨s, c, rfl, hf, hh, hcl, -⟩ := reachable_rep p hp
  cases op with
  | add input =>
    simp only [textStep, addText_conc s hf c input hop] at h
    cases h
    simp only [toEvents, List.mem_flatMap] at he
    obtain ⟨x, hx, hex⟩ := he
    have hxc := (clean_chunk s hcl hf _).2 x hx
    cases c with
    | none => cases hex
    | some n =>
      rw [List.mem_singleton.mp hex]
      simp only [ofc.content_eq]
      exact ⟨hxc.sect_le, hxc.key_le, hxc.value_le, fun h => hxc.sect _ h rfl, fun h => (hxc.key _ h).1 rfl,
        fun h => (hxc.key _ h).2 rfl, fun h => hxc.value _ h rfl⟩
  | reset =>
    simp only [textStep, reset_conc s hf c, bind, Except.bind] at h
    cases h
    cases he
  | setConsumer c' => cases h; cases he

/-! ## C38 -/

theorem cstr_ok_iff (m : List Byte) : (∃ s, cstr m = .ok s) ↔ (0#8 : Byte) ∈ m := by
  rcases cstring_cases m with h | ⟨s, r, rfl, h⟩
  · rw [cstr_noNul m h]
    constructor
    · rintro ⟨s, hs⟩; cases hs
    · intro hm; exact absurd rfl (h _ hm)
  · rw [cstr_eq s r h]
    exact ⟨fun _ => by simp, fun _ => ⟨s, rfl⟩⟩

theorem ofc_cstr_iff (cap : Nat) (c : List Byte) (h : c.length ≤ cap) :
    (∃ s, cstr (ofc cap c).mem = .ok s) ↔ c.length < cap ∨ (0#8 : Byte) ∈ c := by
  rw [cstr_ok_iff]
  simp only [ofc, List.mem_append, List.mem_replicate]
  constructor
  · rintro (h | ⟨h, -⟩)
    · exact Or.inr h
    · exact Or.inl (by omega)
  · rintro (h | h)
    · exact Or.inr ⟨by omega, trivial⟩
    · exact Or.inl h

/-- The buffers of an event. -/
theorem event_form (p : TextParser) (hp : ReachableText p) (op : TextOp) (hop : op.Ok) (q : TextParser) (evs : List ParseEvent)
    (h : textStep p op = .ok (q, evs)) (e : ParseEvent) (he : e ∈ evs) :
    ∃ x : Entry, x.Clean ∧ e.sect = ofc 11 x.sect ∧ e.key = ofc 11 x.key ∧ e.value = ofc 26 x.value := by
  obtain ⟨s, c, rfl, hf, hh, hcl, -⟩ := reachable_rep p hp
  cases op with
  | add input =>
    simp only [textStep, addText_conc s hf c input hop] at h
    cases h
    simp only [toEvents, List.mem_flatMap] at he
    obtain ⟨x, hx, hex⟩ := he
    have hxc := (clean_chunk s hcl hf _).2 x hx
    cases c with
    | none => cases hex
    | some n =>
      rw [List.mem_singleton.mp hex]
      exact ⟨x, hxc, rfl, rfl, rfl⟩
  | reset =>
    simp only [textStep, reset_conc s hf c, bind, Except.bind] at h
    cases h
    cases he
  | setConsumer c' => cases h; cases he

/-- C38. Exactly when the buffers handed to a consumer can be read as C strings: unless the token fills its buffer (11, 11, 26 bytes)
and contains no NUL itself. -/
theorem C38_exactly (p : TextParser) (hp : ReachableText p) (op : TextOp) (hop : op.Ok) (q : TextParser) (evs : List ParseEvent)
    (h : textStep p op = .ok (q, evs)) (e : ParseEvent) (he : e ∈ evs) :
    ((∃ s, cstr e.sect.mem = .ok s) ↔ (content e.sect).length < 11 ∨ (0#8 : Byte) ∈ content e.sect) ∧
    ((∃ s, cstr e.key.mem = .ok s) ↔ (content e.key).length < 11 ∨ (0#8 : Byte) ∈ content e.key) ∧
    ((∃ s, cstr e.value.mem = .ok s) ↔ (content e.value).length < 26 ∨ (0#8 : Byte) ∈ content e.value) := by
  obtain ⟨x, hx, h1, h2, h3⟩ := event_form p hp op hop q evs h e he
  rw [h1, h2, h3]
  simp only [ofc.content_eq]
  exact ⟨ofc_cstr_iff 11 _ hx.sect_le, ofc_cstr_iff 11 _ hx.key_le, ofc_cstr_iff 26 _ hx.value_le⟩

theorem ofc_cstr (cap : Nat) (c : List Byte) (h : c.length < cap) (hn : ∀ b ∈ c, b ≠ 0#8) : cstr (ofc cap c).mem = .ok c := by
  have : cap - c.length = (cap - c.length - 1) + 1 := by omega
  simp only [ofc]
  rw [this, List.replicate_succ]
  exact cstr_eq c _ hn

/-- C38, for tokens one byte shorter than their buffers (10, 10, 25 bytes) and free of NUL: the C string is the token. Missing: tokens
that fill their buffer, for which it is false (`C38_false`). -/
theorem C38_terminated_partial (p : TextParser) (hp : ReachableText p) (op : TextOp) (hop : op.Ok) (q : TextParser)
    (evs : List ParseEvent) (h : textStep p op = .ok (q, evs)) (e : ParseEvent) (he : e ∈ evs) :
    ((content e.sect).length ≤ 10 → (∀ b ∈ content e.sect, b ≠ 0#8) → cstr e.sect.mem = .ok (content e.sect)) ∧
    ((content e.key).length ≤ 10 → (∀ b ∈ content e.key, b ≠ 0#8) → cstr e.key.mem = .ok (content e.key)) ∧
    ((content e.value).length ≤ 25 → (∀ b ∈ content e.value, b ≠ 0#8) → cstr e.value.mem = .ok (content e.value)) := by
  obtain ⟨x, hx, h1, h2, h3⟩ := event_form p hp op hop q evs h e he
  rw [h1, h2, h3]
  simp only [ofc.content_eq]
  exact ⟨fun h hn => ofc_cstr 11 _ (by omega) hn, fun h hn => ofc_cstr 11 _ (by omega) hn, fun h hn => ofc_cstr 26 _ (by omega) hn⟩

/-- A buffer holding a text. -/
def textBuffer (s : String) : BufferManager := ofc 30 (str s)

/-- A new parser with consumer 7. -/
def exampleParser : TextParser := conc .start (some 7) []

theorem exampleParser_reachable : ReachableText exampleParser :=
  ⟨List.replicate 31 5#8, List.replicate 11 5#8, List.replicate 11 5#8, List.replicate 26 5#8, conc .start none [],
    [.setConsumer (some 7)], [], rfl, rfl, rfl, rfl, construct_rep _ _ _ _ rfl rfl rfl rfl,
    by intro o ho; rw [List.mem_singleton.mp ho]; trivial, rfl⟩

/-- C38 is false: a section name of 11 characters is handed to the consumer without a terminator, and reading it as a C string runs
off the end of the buffer. -/
theorem C38_false :
    ∃ p q evs e, ReachableText p ∧ p.addText (textBuffer "[lokomotive1]\n .uid=0x1\n") = .ok (q, evs) ∧ e ∈ evs ∧
      content e.sect = str "lokomotive1" ∧ content e.value = str "0x1" ∧ cstr e.sect.mem = .error .oobRead := by
  refine ⟨exampleParser, _, _, { consumer := 7, sect := ofc 11 (str "lokomotive1"), key := ofc 11 (str "uid"), value := ofc 26 (str "0x1") },
    exampleParser_reachable, addText_conc _ Reader.fits_start _ _ (ofc.ok (by decide) (by decide)), ?_, ?_, ?_, ?_⟩
  · show _ ∈ toEvents (some 7) (Reader.start.chunk (content (ofc 30 (str "[lokomotive1]\n .uid=0x1\n")))).2
    rw [ofc.content_eq]
    decide
  · exact ofc.content_eq ..
  · exact ofc.content_eq ..
  · rfl

/-! ## Cases meeting the hypotheses -/

/-- A document with a section, an entry, a flag and fillers. -/
def exampleItems : List Item :=
  [.section [] (str "lokomotive"), .entry (str "\n ") (str "uid") (str "0x4005"), .flag (str " ") (str "funktionen"),
   .section (str "\n") (str "x"), .entry (str "\n ") (str "typ") (str "mfx")]

theorem exampleItems_ok : (∀ i ∈ exampleItems, i.WellFormed) ∧ (∀ i ∈ exampleItems, i.Fits) := by
  constructor
  · intro i hi
    simp only [exampleItems, List.mem_cons, List.mem_nil_iff, or_false] at hi
    have hd : ∀ l : List Byte, l.all (fun b => b != ch '.' && b != ch '[') = true → IsFiller l := by
      intro l h b hb
      have := List.all_eq_true.mp h b hb
      simpa using this
    have hnm : ∀ l : List Byte, l.all (fun b => b != ch ']') = true → IsName l := by
      intro l h b hb
      have := List.all_eq_true.mp h b hb
      simpa using this
    have hk : ∀ l : List Byte, l.all (fun b => b != ch '=' && b != ch '\n') = true → IsKey l := by
      intro l h b hb
      have := List.all_eq_true.mp h b hb
      simpa using this
    have hv : ∀ l : List Byte, l.all (fun b => b != ch '\n') = true → IsValue l := by
      intro l h b hb
      have := List.all_eq_true.mp h b hb
      simpa using this
    rcases hi with rfl | rfl | rfl | rfl | rfl
    · exact ⟨hd _ rfl, hnm _ rfl⟩
    · exact ⟨hd _ rfl, hk _ rfl, hv _ rfl⟩
    · exact ⟨hd _ rfl, hk _ rfl⟩
    · exact ⟨hd _ rfl, hnm _ rfl⟩
    · exact ⟨hd _ rfl, hk _ rfl, hv _ rfl⟩
  · intro i hi
    simp only [exampleItems, List.mem_cons, List.mem_nil_iff, or_false] at hi
    rcases hi with rfl | rfl | rfl | rfl | rfl
    all_goals (simp only [Item.Fits]; decide)

/-- C33, C34, C35, C37: the document in two different chunkings meets the hypotheses, and what the consumer is told. -/
theorem C35_case :
    let is := [textBuffer "[lokomotive]\n .u", textBuffer "id=0x4005\n .funktionen\n\n", textBuffer "", textBuffer "[x]\n .typ=mfx\n"]
    let js := [textBuffer "[lokomotive]\n .uid=0x4005\n .", textBuffer "funktionen\n\n[x]\n .typ=mfx\n"]
    (is.map content).flatten = render exampleItems ∧ (js.map content).flatten = render exampleItems ∧
      (∀ i ∈ is, BufOk i ∧ (content i).length ≤ 30) ∧ (∀ i ∈ js, BufOk i ∧ (content i).length ≤ 30) ∧
      exampleParser.state = .LOOKING_FOR_KEY_OR_SECTION_START ∧
      tell exampleParser.consumer (entriesOf (content exampleParser.sect) exampleItems) =
        [(7, { sect := str "lokomotive", key := str "uid", value := str "0x4005" }),
         (7, { sect := str "lokomotive", key := str "funktionen", value := [] }),
         (7, { sect := str "x", key := str "typ", value := str "mfx" })] := by
  have hb : ∀ s : String, (str s).length ≤ 30 → BufOk (textBuffer s) ∧ (content (textBuffer s)).length ≤ 30 := by
    intro s h
    exact ⟨ofc.ok h (by decide), by rw [textBuffer, ofc.content_eq]; exact h⟩
  refine ⟨by decide, by decide, ?_, ?_, rfl, by decide⟩
  · intro i hi
    simp only [List.mem_cons, List.mem_nil_iff, or_false] at hi
    rcases hi with rfl | rfl | rfl | rfl <;> exact hb _ (by decide)
  · intro i hi
    simp only [List.mem_cons, List.mem_nil_iff, or_false] at hi
    rcases hi with rfl | rfl <;> exact hb _ (by decide)

/-- C36: a line whose value has 27 bytes is well formed and does not fit; so is an oversized chunk possible. -/
theorem C36_case :
    (Item.entry (str " ") (str "name") (List.replicate 27 (ch 'a'))).WellFormed ∧
      ¬(Item.entry (str " ") (str "name") (List.replicate 27 (ch 'a'))).Fits ∧
      (Tail.inSection [] (List.replicate 12 (ch 'a'))).WellFormed ∧ ¬(Tail.inSection [] (List.replicate 12 (ch 'a'))).Fits ∧
      BufOk (ofc 31 (List.replicate 31 0#8)) ∧ 30 < (content (ofc 31 (List.replicate 31 0#8))).length ∧
      (∃ p, ReachableText p ∧ p.state = .ERROR ∧ p.consumer = some 7) := by
  refine ⟨⟨?_, ?_, ?_⟩, ?_, ⟨?_, ?_⟩, ?_, ofc.ok (by decide) (by decide), by decide, ?_⟩
  · intro b hb
    rw [show str " " = [0x20#8] from rfl] at hb
    rw [List.mem_singleton.mp hb]
    decide
  · have h : ∀ b ∈ str "name", b ≠ ch '=' ∧ b ≠ ch '\n' := by decide
    exact h
  · intro b hb; rw [(List.mem_replicate.mp hb).2]; decide
  · simp only [Item.Fits]; decide
  · intro b hb; cases hb
  · intro b hb; rw [(List.mem_replicate.mp hb).2]; decide
  · simp only [Tail.Fits]; decide
  · have hok : (TextOp.add (ofc 31 (List.replicate 31 0#8))).Ok := ofc.ok (by decide) (by decide)
    obtain ⟨q, evs, h1, -, h2⟩ := C33_total exampleParser exampleParser_reachable _ hok
    refine ⟨q, h2, ?_⟩
    have h3 := addText_conc .start Reader.fits_start (some 7) _ hok
    rw [show textStep exampleParser (.add (ofc 31 (List.replicate 31 0#8))) =
      (conc .start (some 7) []).addText (ofc 31 (List.replicate 31 0#8)) from rfl, h3] at h1
    cases h1
    exact ⟨rfl, rfl⟩

end RR32
