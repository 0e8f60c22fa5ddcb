import Verif.Proofs.NestedSafe
import Verif.Proofs.Traffic

/-! # Callbacks that call back: an invariant of every call -/

set_option autoImplicit false

namespace RR32

open Spec

/-! ## Outcomes of runs -/

/-- The run returns a result with `Q`, or faults with one of `E`, or exhausts the stack if `N`. -/
def Run.Sat {α : Type} (N : Prop) (E : Fault → Prop) (x : Run α) (Q : α → Prop) : Prop :=
  match x.run with
  | none => N
  | some (.error e) => E e
  | some (.ok a) => Q a

section
variable {α β γ : Type} {N : Prop} {E : Fault → Prop}

theorem sat_pure {a : α} {Q : α → Prop} (h : Q a) : (pure a : Run α).Sat N E Q := h

theorem sat_lift {r : Res α} {Q : α → Prop} (h1 : ∀ e, r = .error e → E e) (h2 : ∀ a, r = .ok a → Q a) : (Run.lift r).Sat N E Q := by
  cases r with
  | error e => exact h1 e rfl
  | ok a => exact h2 a rfl

theorem sat_bind {x : Run α} {f : α → Run β} {Q : α → Prop} {R : β → Prop} (hx : x.Sat N E Q) (hf : ∀ a, Q a → (f a).Sat N E R) :
    (x >>= f).Sat N E R := by
  unfold Run.Sat at hx ⊢
  cases hr : x.run with
  | none => rw [run_bind_none hr]; rw [hr] at hx; exact hx
  | some r =>
    cases r with
    | error e => rw [run_bind_error hr]; rw [hr] at hx; exact hx
    | ok a => rw [run_bind_ok hr]; rw [hr] at hx; exact hf a hx

theorem sat_mono {x : Run α} {Q R : α → Prop} (hx : x.Sat N E Q) (h : ∀ a, Q a → R a) : x.Sat N E R := by
  unfold Run.Sat at hx ⊢
  cases hr : x.run with
  | none => rw [hr] at hx; exact hx
  | some r =>
    cases r with
    | error e => rw [hr] at hx; exact hx
    | ok a => rw [hr] at hx; exact h a hx

theorem sat_foldlM (f : β → γ → Run β) (I : β → Prop) (l : List γ) (b : β) (h : ∀ x ∈ l, ∀ b, I b → (f b x).Sat N E I) (hb : I b) :
    (l.foldlM f b).Sat N E I := by
  induction l generalizing b with
  | nil => exact hb
  | cons x l ih =>
    rw [List.foldlM_cons]
    exact sat_bind (h x (List.mem_cons_self ..) b hb) (fun a ha => ih a (fun y hy => h y (List.mem_cons_of_mem _ hy)) ha)

end

/-! ## The invariant -/

/-- The text parser is one that the library's own calls lead to, in the middle of a packet or between packets, and its consumer is one
of `S`. -/
def TextGood (S : Nat → Prop) (t : TextParser) : Prop :=
  ∃ s cons b, s.Fits ∧ b.length ≤ 31 ∧ t = conc s cons b ∧ ∀ c, cons = some c → S c

/-- A name as an engine object has it: a terminated string in an array of 33 bytes. -/
def Named (i : ShortInfo) : Prop := i.name.length = 33 ∧ 0#8 ∈ i.name

/-- What every call leaves intact. `S` are the consumers the application attaches; the CRC of the parsers in `C` has been initialised. With
`strict`, in addition: all consumers in `S` are the application's own, the station has the callbacks it does not check for null, and the
names of engines are terminated. -/
structure Good (S C : Nat → Prop) (strict : Prop) (w : World) : Prop where
  texts : ∀ n, TextGood S (w.parsers n).text
  attached : ∀ n c, (w.parsers n).consumer = some c → S c
  waiting : ∀ n, (w.parsers n).state = .WAITING_FIRST_PACKET ∨ (w.parsers n).state = .WAITING_DATA_PACKET → (w.parsers n).crc.isSome = true
  crcs : ∀ n, C n → (w.parsers n).crc.isSome = true
  init : ∀ c, S c → (w.consumers c).Initialised
  shaped : Shaped w.engines
  app : strict → ∀ c, S c → w.consumers c = .app
  tx : strict → w.station.callbacks.tx.isSome = true
  engine : strict → w.station.callbacks.engine.isSome = true
  names : strict → ∀ e, Named (w.engines e).info

/-- The faults that are left: none, if `strict`. -/
def Left (strict : Prop) (e : Fault) : Prop := ¬strict ∧ (e = .nullDeref ∨ e = .oobRead)

/-- The rules for the application's calls. -/
def Permitted (S : Nat → Prop) (strict : Prop) : Op → Prop
  | .parserStart _ (some c) => S c
  | .assignEngine _ l => 8 ≤ l.protocol.length ∧ (strict → Named l.info)
  | .begin_ _ cbs => strict → cbs.tx.isSome = true ∧ cbs.engine.isSome = true
  | .handle f => strict → f.data.dlc.toNat ≤ 9
  | .setName _ name => strict → 0#8 ∈ name ∨ 32 ≤ name.length
  | .requestShortInfo i _ => strict → Named i
  | _ => True

namespace World

variable {S C : Nat → Prop} {strict : Prop}

theorem good_setParser {w : World} (h : Good S C strict w) (n : Nat) (p : StreamParser) (h1 : TextGood S p.text) (h2 : ∀ c, p.consumer = some c → S c)
    (h3 : p.state = .WAITING_FIRST_PACKET ∨ p.state = .WAITING_DATA_PACKET → p.crc.isSome = true) (h4 : C n → p.crc.isSome = true) :
    Good S C strict (w.setParser n p) := by
  refine ⟨fun m => ?_, fun m => ?_, fun m => ?_, fun m => ?_, h.init, h.shaped, h.app, h.tx, h.engine, h.names⟩ <;> simp only [setParser] <;> split
  · exact h1
  · exact h.texts m
  · exact h2
  · exact h.attached m
  · exact h3
  · exact h.waiting m
  · next e => rw [e]; exact h4
  · exact h.crcs m

theorem good_setText {w : World} (h : Good S C strict w) (n : Nat) (t : TextParser) (ht : TextGood S t) : Good S C strict (w.setText n t) :=
  good_setParser h n _ ht (h.attached n) (h.waiting n) (h.crcs n)

theorem good_log {w : World} (h : Good S C strict w) (l : List LogEntry) : Good S C strict (w.logAll l) :=
  ⟨h.texts, h.attached, h.waiting, h.crcs, h.init, h.shaped, h.app, h.tx, h.engine, h.names⟩

theorem good_register {w : World} (h : Good S C strict w) (p : Option Nat) : Good S C strict (w.register p) :=
  ⟨h.texts, h.attached, h.waiting, h.crcs, h.init, h.shaped, h.app, h.tx, h.engine, h.names⟩

theorem good_callConsumer {w v : World} (h : Good S C strict w) (c : ConsumerCall) (hc : S c.consumer) (hv : w.callConsumer c = .ok v) :
    Good S C strict v := by
  have hq := callConsumer_quiet w v c hv
  have hst : strict → v = w.logAll [.consumer c] := by
    intro hs
    unfold callConsumer at hv
    simp only [show (w.logAll [.consumer c]).consumers = w.consumers from rfl, h.app hs _ hc] at hv
    cases hv; rfl
  have hst' := hq.1
  refine ⟨by rw [hq.2]; exact h.texts, by rw [hq.2]; exact h.attached, by rw [hq.2]; exact h.waiting, by rw [hq.2]; exact h.crcs,
    fun x hx => callConsumer_init hv x (h.init x hx), (callConsumer_mild w c (h.init _ hc) h.shaped).2 v hv,
    fun hs => by rw [hst hs]; exact h.app hs, fun hs => by rw [hst hs]; exact h.tx hs, fun hs => by rw [hst hs]; exact h.engine hs,
    fun hs => by rw [hst hs]; exact h.names hs⟩

theorem callConsumer_faults {w : World} (h : Good S C strict w) (c : ConsumerCall) (hc : S c.consumer) (e : Fault)
    (he : w.callConsumer c = .error e) : Left strict e := by
  refine ⟨fun hs => ?_, (callConsumer_mild w c (h.init _ hc) h.shaped).1.fault e he⟩
  unfold callConsumer at he
  simp only [show (w.logAll [.consumer c]).consumers = w.consumers from rfl, h.app hs _ hc] at he
  cases he

section
variable {N : Prop} {P : Program} {k : World → Op → Run World}
  (hR : ∀ w e, Good S C strict w → (react P k w e).Sat N (Left strict) (Good S C strict))
include hR

theorem tell_good (w : World) (e : LogEntry) (h : Good S C strict w) : (tell P k w e).Sat N (Left strict) (Good S C strict) :=
  hR _ e (good_log h _)

theorem callConsumerN_good (w : World) (c : ConsumerCall) (hc : S c.consumer) (h : Good S C strict w) :
    (callConsumerN P k w c).Sat N (Left strict) (Good S C strict) :=
  sat_bind (sat_lift (callConsumer_faults h c hc) (fun _ hv => good_callConsumer h c hc hv))
    (fun _ hv => sat_foldlM _ _ _ _ (fun e _ u hu => hR u e hu) hv)

theorem tellConsumers_good (w : World) (cs : List ConsumerCall) (hc : ∀ c ∈ cs, S c.consumer) (h : Good S C strict w) :
    (tellConsumers P k w cs).Sat N (Left strict) (Good S C strict) :=
  sat_foldlM _ _ _ _ (fun c hm u hu => callConsumerN_good hR u c (hc c hm) hu) h

theorem tellEvents_good (w : World) (evs : List ParseEvent) (hc : ∀ c ∈ evs, S c.consumer) (h : Good S C strict w) :
    (tellEvents P k w evs).Sat N (Left strict) (Good S C strict) :=
  sat_foldlM _ _ _ _ (fun c hm u hu => by
    obtain ⟨e, he, rfl⟩ := List.mem_map.mp hm
    exact callConsumerN_good hR u _ (hc e he) hu) h

omit hR in
theorem toEvents_of {cons : Option Nat} (hc : ∀ c, cons = some c → S c) (es : List Entry) : ∀ e ∈ toEvents cons es, S e.consumer := by
  intro e he
  obtain ⟨x, -, hx⟩ := List.mem_flatMap.mp he
  unfold toEvent at hx
  cases cons with
  | none => cases hx
  | some c => rw [List.mem_singleton.mp hx]; exact hc c rfl

omit hR in
theorem pushed_fits {s : Reader} (hs : s.Fits) (d : TextParser.Dest) (a : List Byte) (h : (destOf s d).length + a.length ≤ destCap d) :
    (pushed s a d).Fits := by
  cases d with
  | null => exact hs
  | sect => exact ⟨by simpa [pushed, destOf, destCap, maxSection] using h, hs.key, hs.value⟩
  | key => exact ⟨hs.sect, by simpa [pushed, destOf, destCap, maxKey] using h, hs.value⟩
  | value => exact ⟨hs.sect, hs.key, by simpa [pushed, destOf, destCap, maxValue] using h⟩

/-- `findToken` starting inside the buffer. -/
theorem findTokenN_good (w : World) (n offset : Nat) (chars : List Byte) (hn : NoNul chars) (hl : chars.length < 256) (d : TextParser.Dest)
    (h : Good S C strict w) (ho : offset < (w.text n).buffer.len) :
    (findTokenN P k w n offset (chars ++ [0#8]) d).Sat N (Left strict)
      (fun x => Good S C strict x.1 ∧ offset < x.2.consumed ∧ x.2.consumed ≤ 31) := by
  obtain ⟨s, cons, b, hs, hb, ht, hc⟩ := h.texts n
  have ht : w.text n = conc s cons b := ht
  rw [ht] at ho
  have ho : offset < b.length := ho
  unfold findTokenN
  obtain ⟨a, tl, hat, ha, hst⟩ := split_stop chars (b.drop offset)
  have hbe : b = b.take offset ++ (a ++ tl) := by rw [← hat, List.take_append_drop]
  have hpl : (b.take offset).length = offset := by rw [List.length_take]; omega
  have hlen : offset + (a.length + tl.length) = b.length := by
    have := congrArg List.length hbe
    rw [List.length_append, List.length_append, hpl] at this
    exact this.symm
  have hne : a ++ tl ≠ [] := by
    rw [← hat]; intro e; have := congrArg List.length e; rw [List.length_drop] at this; simp at this; omega
  obtain ⟨m, hf⟩ := findToken_conc s hs cons d chars hn hl (b.take offset) a tl (by rw [← hbe]; exact hb) ha hne hst
  rw [← hbe, hpl] at hf
  rw [ht, hf]
  by_cases hfit : (destOf s d).length + a.length ≤ destCap d
  · rw [if_pos hfit]
    refine sat_bind (Q := fun x => x = (conc (pushed s a d) cons b, [], tokenResult (offset + a.length) tl)) rfl ?_
    rintro _ rfl
    refine sat_bind (tellEvents_good hR _ _ (by intro e he; cases he) (good_setText h n _ ⟨_, cons, b, pushed_fits hs d a hfit, hb, rfl, hc⟩)) ?_
    intro v hv
    refine sat_pure ⟨hv, ?_⟩
    cases tl with
    | nil =>
      have : 0 < a.length := List.length_pos_iff.mpr (by simpa using hne)
      simp only [tokenResult, List.length_nil] at hlen ⊢
      omega
    | cons x r =>
      simp only [tokenResult, List.length_cons] at hlen ⊢
      omega
  · rw [if_neg hfit]
    refine sat_bind (Q := fun x => x = (conc .failed cons b, toEvents cons [Entry.error],
      ({ consumed := offset + a.length, success := false, matchingChar := m } : TextParser.FindTokenResult))) rfl ?_
    rintro _ rfl
    refine sat_bind (tellEvents_good hR _ _ (toEvents_of hc _) (good_setText h n _ ⟨_, cons, b, Reader.fits_failed, hb, rfl, hc⟩)) ?_
    intro v hv
    refine sat_pure ⟨hv, ?_⟩
    have : (destOf s d).length ≤ destCap d := by
      cases d with
      | null => exact Nat.zero_le _
      | sect => exact hs.sect
      | key => exact hs.key
      | value => exact hs.value
    show offset < offset + a.length ∧ offset + a.length ≤ 31
    omega

omit hR in
theorem emit_good {t : TextParser} (h : TextGood S t) : ∀ e ∈ t.emit, S e.consumer := by
  obtain ⟨s, cons, b, hs, hb, rfl, hc⟩ := h
  rw [emit_conc]
  exact toEvents_of hc _

omit hR in
theorem lift_ok_good {α : Type} {r : Res α} (a : α) (h : r = .ok a) : (Run.lift r).Sat N (Left strict) (fun x => x = a) := by
  rw [h]; exact rfl

theorem reportParseErrorN_good (w : World) (n : Nat) (h : Good S C strict w) :
    (reportParseErrorN P k w n).Sat N (Left strict) (Good S C strict) := by
  obtain ⟨s, cons, b, hs, hb, ht, hc⟩ := h.texts n
  unfold reportParseErrorN
  rw [show w.text n = conc s cons b from ht]
  refine sat_bind (lift_ok_good _ (report_conc s hs cons b)) ?_
  rintro _ rfl
  exact tellEvents_good hR _ _ (toEvents_of hc _) (good_setText h n _ ⟨_, cons, b, Reader.fits_failed, hb, rfl, hc⟩)

/-- One turn of the loop makes progress. -/
theorem processStepN_good (w : World) (n i : Nat) (h : Good S C strict w) (hi : i < (w.text n).buffer.len) :
    (processStepN P k w n i).Sat N (Left strict) (fun x => Good S C strict x.1 ∧ i < x.2.1 ∧ x.2.1 ≤ 31 ∧ x.2.2 = false) := by
  have plain : (do
      let (t, evs, consumed, stop) ← Run.lift ((w.text n).processStep i)
      let w ← tellEvents P k (w.setText n t) evs
      pure (w, consumed, stop) : Run (World × Nat × Bool)).Sat N (Left strict) (fun x => Good S C strict x.1 ∧ i < x.2.1 ∧ x.2.1 ≤ 31 ∧ x.2.2 = false) := by
    obtain ⟨s, cons, b, hs, hb, ht, hc⟩ := h.texts n
    have ht : w.text n = conc s cons b := ht
    rw [ht] at hi
    have hi : i < b.length := hi
    have hpl : (b.take i).length = i := by rw [List.length_take]; omega
    obtain ⟨m, s', es, h1, h2, h3, h4, -⟩ := processStep_conc s hs cons (b.take i) (b.drop i)
      (by intro e; have := congrArg List.length e; rw [List.length_drop] at this; simp at this; omega)
      (by rw [List.take_append_drop]; exact hb)
    rw [List.take_append_drop, hpl] at h1
    rw [ht]
    refine sat_bind (lift_ok_good _ h1) ?_
    rintro _ rfl
    refine sat_bind (tellEvents_good hR _ _ (toEvents_of hc _) (good_setText h n _ ⟨s', cons, b, h4, hb, rfl, hc⟩)) ?_
    intro v hv
    rw [List.length_drop] at h3
    exact sat_pure ⟨hv, by show i < i + m; omega, by show i + m ≤ 31; omega, rfl⟩
  unfold processStepN
  split
  · exact plain
  · exact plain
  · exact plain
  · exact plain
  · refine sat_bind (findTokenN_good hR w n i [TextParser.kKeyStop, TextParser.kValueStop] (by intro c hc; revert c; decide) (by decide) .key h hi) ?_
    rintro ⟨v, r⟩ ⟨hv, h1, h2⟩
    have done : ∀ u, Good S C strict u → (pure (u, r.consumed, false) : Run (World × Nat × Bool)).Sat N (Left strict)
        (fun x => Good S C strict x.1 ∧ i < x.2.1 ∧ x.2.1 ≤ 31 ∧ x.2.2 = false) := fun u hu => sat_pure ⟨hu, h1, h2, rfl⟩
    simp only
    split
    · split
      · refine done _ (good_setText hv n _ ?_)
        obtain ⟨s, cons, b, hs, hb, ht, hc⟩ := hv.texts n
        rw [show v.text n = conc s cons b from ht]
        exact ⟨{ s with mode := .value }, cons, b, ⟨hs.sect, hs.key, hs.value⟩, hb, rfl, hc⟩
      · split
        · obtain ⟨s, cons, b, hs, hb, ht, hc⟩ := hv.texts n
          rw [show v.text n = conc s cons b from ht]
          refine sat_bind (lift_ok_good _ (ofc.erase (cap := 26) hs.value)) ?_
          rintro _ rfl
          have hg : Good S C strict (v.setText n (conc { s with value := [] } cons b)) :=
            good_setText hv n _ ⟨{ s with value := [] }, cons, b, ⟨hs.sect, hs.key, Nat.zero_le _⟩, hb, rfl, hc⟩
          refine sat_bind (tellEvents_good hR _ _ (emit_good (hg.texts n)) hg) ?_
          intro u hu
          obtain ⟨s2, cons2, b2, hs2, hb2, ht2, hc2⟩ := hu.texts n
          rw [show u.text n = conc s2 cons2 b2 from ht2]
          refine sat_bind (lift_ok_good _ (ofc.erase (cap := 11) hs2.key)) ?_
          rintro _ rfl
          refine done _ (good_setText hu n _ ?_)
          exact ⟨{ s2 with key := [], mode := .look }, cons2, b2, ⟨hs2.sect, Nat.zero_le _, hs2.value⟩, hb2, rfl, hc2⟩
        · exact done _ hv
    · exact done _ hv
  · refine sat_bind (findTokenN_good hR w n i [TextParser.kValueStop] (by intro c hc; revert c; decide) (by decide) .value h hi) ?_
    rintro ⟨v, r⟩ ⟨hv, h1, h2⟩
    have done : ∀ u, Good S C strict u → (pure (u, r.consumed, false) : Run (World × Nat × Bool)).Sat N (Left strict)
        (fun x => Good S C strict x.1 ∧ i < x.2.1 ∧ x.2.1 ≤ 31 ∧ x.2.2 = false) := fun u hu => sat_pure ⟨hu, h1, h2, rfl⟩
    simp only
    split
    · refine sat_bind (tellEvents_good hR _ _ (emit_good (hv.texts n)) hv) ?_
      intro u hu
      obtain ⟨s, cons, b, hs, hb, ht, hc⟩ := hu.texts n
      rw [show u.text n = conc s cons b from ht]
      refine sat_bind (lift_ok_good _ (ofc.erase (cap := 11) hs.key)) ?_
      rintro _ rfl
      have hg : Good S C strict (u.setText n (conc { s with key := [] } cons b)) :=
        good_setText hu n _ ⟨{ s with key := [] }, cons, b, ⟨hs.sect, Nat.zero_le _, hs.value⟩, hb, rfl, hc⟩
      show (Run.lift ((u.setText n (conc { s with key := [] } cons b)).text n).value.erase >>= _ : Run _).Sat _ _ _
      rw [setText_text]
      refine sat_bind (lift_ok_good _ (ofc.erase (cap := 26) hs.value)) ?_
      rintro _ rfl
      refine done _ (good_setText hg n _ ?_)
      rw [setText_text]
      exact ⟨{ s with key := [], value := [], mode := .look }, cons, b, ⟨hs.sect, Nat.zero_le _, Nat.zero_le _⟩, hb, rfl, hc⟩
    · exact done _ hv

theorem processLoopN_good (fuel : Nat) (w : World) (n i : Nat) (h : Good S C strict w) (hi : 31 - i < fuel) (hi' : i ≤ 31) :
    (processLoopN P k fuel w n i).Sat N (Left strict) (fun x => Good S C strict x.1) := by
  induction fuel generalizing w i with
  | zero => omega
  | succ fuel ih =>
    unfold processLoopN
    split
    · next hl =>
      refine sat_bind (processStepN_good hR w n i h hl) ?_
      rintro ⟨v, j, stop⟩ ⟨hv, h1, h2, h3⟩
      have h3 : stop = false := h3
      subst h3
      simp only at h1 h2
      exact ih v j hv (by omega) h2
    · exact sat_pure h

theorem addLoopN_good (fuel : Nat) (w : World) (n : Nat) (input : BufferManager) (hin : BufOk input) (hlen : input.len ≤ 30) (i : Nat)
    (h : Good S C strict w) (hi : input.len - i < fuel) (hi' : i ≤ input.len) :
    (addLoopN P k fuel w n input i).Sat N (Left strict) (Good S C strict) := by
  induction fuel generalizing w i with
  | zero => omega
  | succ fuel ih =>
    unfold addLoopN
    split
    · next hl =>
      split
      · exact reportParseErrorN_good hR w n h
      · next hf =>
        obtain ⟨s, cons, b, hs, hb, ht, hc⟩ := h.texts n
        have ht : w.text n = conc s cons b := ht
        have hfull : b.length < 31 := by
          rw [ht] at hf
          simp only [conc, BufferManager.full, BufferManager.capacity_remaining, ofc, Bool.or_eq_true, not_or, beq_iff_eq, u8] at hf
          omega
        have hvok := (C28_view input hin i input.len).2.2.1
        have hview := C28_from input hin i
        have hpush := ofc.push_back (cap := 31) (c := b) hb (by omega) (input.subBufferManagerFrom i) (Nat.le_trans hvok.len_le hvok.mem_le)
        have hcl : (content (input.subBufferManagerFrom i)).length = input.len - i := by
          rw [hview, List.length_drop, content, List.length_take]
          have := hin.len_le; have := hin.mem_le; omega
        rw [ht]
        refine sat_bind (lift_ok_good _ hpush) ?_
        rintro _ rfl
        simp only [hcl]
        have hu : u8 (i + min (31 - b.length) (input.len - i)) = i + min (31 - b.length) (input.len - i) := by unfold u8; omega
        rw [hu]
        have hg : Good S C strict (w.setText n { conc s cons b with buffer := ofc 31 (b ++ (content (input.subBufferManagerFrom i)).take (31 - b.length)) }) := by
          refine good_setText h n _ ⟨s, cons, _, hs, ?_, rfl, hc⟩
          rw [List.length_append, List.length_take]
          omega
        refine sat_bind (processLoopN_good hR TextParser.loopFuel _ n 0 hg (by unfold TextParser.loopFuel; omega) (by omega)) ?_
        rintro ⟨v, j⟩ hv
        have hv : Good S C strict v := hv
        obtain ⟨s2, cons2, b2, hs2, hb2, ht2, hc2⟩ := hv.texts n
        rw [show v.text n = conc s2 cons2 b2 from ht2]
        refine sat_bind (lift_ok_good _ (ofc.pop_front (cap := 31) hb2 (by omega) j)) ?_
        rintro _ rfl
        refine ih _ _ (good_setText hv n _ ⟨s2, cons2, b2.drop j, hs2, by rw [List.length_drop]; omega, rfl, hc2⟩) (by omega) (by omega)
    · exact sat_pure h

theorem addTextN_good (w : World) (n : Nat) (input : BufferManager) (hin : BufOk input) (h : Good S C strict w) :
    (addTextN P k w n input).Sat N (Left strict) (Good S C strict) := by
  unfold addTextN
  split
  · exact reportParseErrorN_good hR w n h
  · next hc =>
    simp only [TextParser.kBufferLength, Bool.or_eq_true, not_or, decide_eq_true_eq] at hc
    have hl : ¬(30 < input.len) := by simpa using hc.1
    exact addLoopN_good hR _ w n input hin (by omega) 0 h (by unfold TextParser.loopFuel; omega) (by omega)

omit hR in
theorem notify_good {p : StreamParser} (h : ∀ c, p.consumer = some c → S c) (a : ConsumerAction) : ∀ c ∈ p.notify a, S c.consumer := by
  intro c hc
  unfold StreamParser.notify at hc
  cases hp : p.consumer with
  | none => rw [hp] at hc; cases hc
  | some x => rw [hp] at hc; rw [List.mem_singleton.mp hc]; exact h x hp

theorem parserResetN_good (w : World) (n : Nat) (h : Good S C strict w) : (parserResetN P k w n).Sat N (Left strict) (Good S C strict) := by
  unfold parserResetN
  refine sat_bind (tellConsumers_good hR w _ ?_ h) ?_
  · unfold StreamParser.resetNotify
    split
    · exact notify_good (h.attached n) _
    · intro c hc; cases hc
  · intro v hv
    obtain ⟨s, cons, b, hs, hb, ht, hc⟩ := hv.texts n
    have hclear : (v.parsers n).resetClear = .ok cleared := by
      unfold StreamParser.resetClear
      rw [ht]
      simp only [TextParser.reset, conc, bind, Except.bind]
      rw [ofc.erase (cap := 31) hb, ofc.erase (cap := 11) hs.sect, ofc.erase (cap := 11) hs.key, ofc.erase (cap := 26) hs.value]
      rfl
    refine sat_bind (lift_ok_good _ hclear) ?_
    rintro _ rfl
    exact sat_pure (good_setParser hv n _ ⟨.start, none, [], Reader.fits_start, by simp, rfl, by intro c hc; cases hc⟩ (by intro c hc; cases hc)
      (fun _ => rfl) (fun _ => rfl))

end

theorem good_startStream {w : World} (h : Good S C strict w) (n : Nat) : Good S C strict (w.setParser n (w.parsers n).startStream) :=
  good_setParser h n _ (h.texts n) (h.attached n) (fun _ => rfl) (fun _ => rfl)

theorem good_station {w : World} (h : Good S C strict w) (s : Station) (h1 : strict → s.callbacks.tx.isSome = true)
    (h2 : strict → s.callbacks.engine.isSome = true) : Good S C strict { w with station := s } :=
  ⟨h.texts, h.attached, h.waiting, h.crcs, h.init, h.shaped, h.app, h1, h2, h.names⟩

theorem good_weaken {w : World} {C' : Nat → Prop} (h : Good S C' strict w) (hC : ∀ n, C n → C' n) : Good S C strict w :=
  ⟨h.texts, h.attached, h.waiting, fun n hn => h.crcs n (hC n hn), h.init, h.shaped, h.app, h.tx, h.engine, h.names⟩

/-! ### String functions and frames -/

theorem left_mild {α : Type} {r : Res α} (h : Mild r) (hs : strict → ∃ a, r = .ok a) (e : Fault) (he : r = .error e) : Left strict e := by
  refine ⟨fun h' => ?_, h.fault e he⟩
  obtain ⟨a, ha⟩ := hs h'
  rw [ha] at he
  cases he

theorem strncpyBytes_ok (n : Nat) (m : List Byte) (h : 0#8 ∈ m ∨ n ≤ m.length) : ∃ l, strncpyBytes n m = .ok l := by
  induction n generalizing m with
  | zero => exact ⟨[], rfl⟩
  | succ n ih =>
    cases m with
    | nil => rcases h with h | h <;> simp at h
    | cons c m =>
      rw [strncpyBytes]
      split
      · exact ⟨_, rfl⟩
      · next hc =>
        obtain ⟨l, hl⟩ := ih m (by
          rcases h with h | h
          · rcases List.mem_cons.mp h with h | h
            · exact absurd h.symm hc
            · exact Or.inl h
          · exact Or.inr (by simpa using h))
        exact ⟨c :: l, by rw [hl]; rfl⟩

theorem strncpy_ok (d m : List Byte) (n : Nat) (h : 0#8 ∈ m ∨ n ≤ m.length) (hd : n ≤ d.length) :
    ∃ l, strncpy d m n = .ok (l ++ d.drop n) := by
  obtain ⟨l, hl⟩ := strncpyBytes_ok n m h
  have hn := (strncpyBytes_mild n m).2 l hl
  refine ⟨l, ?_⟩
  unfold strncpy
  rw [hl]
  show poke d l = _
  unfold poke
  rw [if_pos (by omega), hn]

theorem strlen_named {i : ShortInfo} (h : Named i) : ∃ n, strlen i.name = .ok n := by
  obtain ⟨s, hs⟩ := (cstr_ok_iff _).mpr h.2
  exact ⟨s.length, by unfold strlen; rw [hs]; rfl⟩

theorem txSend_left {w : World} (h : Good S C strict w) (f : CanFrame) : ∀ e, w.station.txSend f = .error e → Left strict e := by
  refine left_mild (mild_txSend _ _) (fun hs => ?_)
  have := h.tx hs
  unfold Station.txSend
  cases hc : w.station.callbacks.tx with
  | none => rw [hc] at this; cases this
  | some cb => exact ⟨_, rfl⟩

theorem allFunctions_left {w : World} (h : Good S C strict w) (f : CanFrame) (n : Nat) (i : Byte) :
    ∀ e, w.station.allFunctionsLoop f n i = .error e → Left strict e := by
  refine left_mild (mild_allFunctions _ _ _ _) (fun hs => ?_)
  have := h.tx hs
  cases hc : w.station.callbacks.tx with
  | none => rw [hc] at this; cases this
  | some cb =>
    induction n generalizing f i with
    | zero => exact ⟨_, rfl⟩
    | succ n ih =>
      obtain ⟨l, hl⟩ := ih { f with data := { f.data with b4 := i } } (i + 1#8)
      rw [Station.allFunctionsLoop]
      unfold Station.txSend
      simp only [hc, bind, Except.bind, hl]
      exact ⟨_, rfl⟩

theorem handle_left {w : World} (h : Good S C strict w) (b : Bool) (f : CanFrame) (hf : strict → f.data.dlc.toNat ≤ 9) :
    ∀ e, w.station.HandlePacket b f = .error e → Left strict e := by
  refine left_mild (mild_handle _ _ _) (fun hs => ?_)
  rw [HandlePacket_eq]
  have he := h.engine hs
  have hd := hf hs
  rw [if_neg (by rintro ⟨h1, -⟩; rw [h1] at he; cases he), if_neg (by rintro ⟨-, h1⟩; omega)]
  exact ⟨_, rfl⟩

theorem list_left {w : World} (h : Good S C strict w) (off : Byte) (p : Option Nat) :
    ∀ e, w.station.RequestEngineList off p = .error e → Left strict e := by
  have htx := h.tx
  cases hc : w.station.callbacks.tx with
  | none =>
    rw [requestEngineList_null _ off p hc]
    intro e he
    cases he
    exact ⟨fun hs => (by have := htx hs; rw [hc] at this; cases this), Or.inl rfl⟩
  | some cb =>
    obtain ⟨f1, f2, h2, -⟩ := C20_request_engine_list w.station cb hc off p
    rw [h2]
    intro e he
    cases he

/-! ### Calls of the station -/

section
variable {N : Prop} {P : Program} {k : World → Op → Run World}
  (hR : ∀ C w e, Good S C strict w → (react P k w e).Sat N (Left strict) (Good S C strict))
include hR

theorem parserDataN_good (w : World) (n : Nat) (d : Data) (hd : d.dlc = 8#8) (hw : (w.parsers n).state = .WAITING_DATA_PACKET)
    (h : Good S C strict w) : (parserDataN P k w n d).Sat N (Left strict) (Good S C strict) := by
  have hcrc := h.waiting n (Or.inr hw)
  have hbuf : BufOk { mem := d.bytes, cap := d.dlc.toNat, len := CanDataMaxLength } := by
    rw [hd]; exact ⟨(show 8 ≤ 8 by decide), (show 8 ≤ 255 by decide), (show 8 ≤ 9 by decide)⟩
  cases hc : (w.parsers n).crc with
  | none => rw [hc] at hcrc; cases hcrc
  | some crc =>
    unfold parserDataN
    refine sat_bind (lift_ok_good crc (by unfold StreamParser.getCrc; rw [hc])) ?_
    rintro crc rfl
    have hw' : Good S (fun m => C m ∨ m = n) strict (w.setParser n { w.parsers n with remaining := (w.parsers n).remaining - d.dlc.zeroExtend 32, crc := some ((d.bytes.take d.dlc.toNat).foldl Crc.updateCrc crc) }) := by
      have hg : Good S C strict (w.setParser n { w.parsers n with remaining := (w.parsers n).remaining - d.dlc.zeroExtend 32, crc := some ((d.bytes.take d.dlc.toNat).foldl Crc.updateCrc crc) }) :=
        good_setParser h n _ (h.texts n) (h.attached n) (fun _ => rfl) (fun _ => rfl)
      refine ⟨hg.texts, hg.attached, hg.waiting, ?_, hg.init, hg.shaped, hg.app, hg.tx, hg.engine, hg.names⟩
      rintro m (hm | rfl)
      · exact hg.crcs m hm
      · show (World.parsers (World.setParser _ _ _) _).crc.isSome = true
        simp only [setParser, if_true]
        rfl
    refine sat_bind (addTextN_good (hR _) _ n _ hbuf hw') ?_
    intro v hv
    have hvc := hv.crcs n (Or.inr rfl)
    have hv' : Good S C strict v := good_weaken hv (fun _ => Or.inl)
    split
    · cases hcv : (v.parsers n).crc with
      | none => rw [hcv] at hvc; cases hvc
      | some crc' =>
        refine sat_bind (lift_ok_good crc' (by unfold StreamParser.getCrc; rw [hcv])) ?_
        rintro _ rfl
        have hset : ∀ st, Good S C strict (v.setParser n { v.parsers n with state := st }) := fun st =>
          good_setParser hv' n _ (hv'.texts n) (hv'.attached n) (fun _ => hvc) (fun _ => hvc)
        split
        · exact tellConsumers_good (hR _) _ _ (notify_good ((hset .STREAM_DONE).attached n) _) (hset .STREAM_DONE)
        · exact tellConsumers_good (hR _) _ _ (notify_good ((hset .IDLE).attached n) _) (hset .IDLE)
    · exact sat_pure hv'

theorem parserAddN_good (w : World) (n : Nat) (d : Data) (h : Good S C strict w) :
    (parserAddN P k w n d).Sat N (Left strict) (Good S C strict) := by
  unfold parserAddN
  split
  · exact parserResetN_good (hR _) w n h
  · next hres =>
    split
    · next hs =>
      refine parserDataN_good hR w n d ?_ hs h
      simpa [resets, hs] using hres
    · next hs =>
      cases hst : (w.parsers n).state with
      | WAITING_DATA_PACKET => exact absurd hst hs
      | IDLE =>
        refine sat_bind (lift_ok_good (w.parsers n, []) (by unfold StreamParser.addMessage; rw [hst])) ?_
        rintro _ rfl
        exact tellConsumers_good (hR _) _ _ (by intro c hc; cases hc)
          (good_setParser h n _ (h.texts n) (h.attached n) (h.waiting n) (h.crcs n))
      | STREAM_DONE =>
        refine sat_bind (lift_ok_good (w.parsers n, []) (by unfold StreamParser.addMessage; rw [hst])) ?_
        rintro _ rfl
        exact tellConsumers_good (hR _) _ _ (by intro c hc; cases hc)
          (good_setParser h n _ (h.texts n) (h.attached n) (h.waiting n) (h.crcs n))
      | WAITING_FIRST_PACKET =>
        have hcrc := h.waiting n (Or.inl hst)
        have hd : d.dlc = 6#8 ∨ d.dlc = 7#8 := by
          simp only [resets, hst, decide_eq_true_eq] at hres
          by_cases h6 : d.dlc = 6#8
          · exact Or.inl h6
          · by_cases h7 : d.dlc = 7#8
            · exact Or.inr h7
            · exact absurd ⟨h6, h7⟩ hres
        cases hc : (w.parsers n).crc with
        | none => rw [hc] at hcrc; cases hcrc
        | some crc =>
          have hadd : ∃ st rem, (w.parsers n).addMessage d = .ok ({ w.parsers n with state := st, remaining := rem, crc := some (crc.loadReference (StreamParser.firstCrc d)) }, if st = .STREAM_DONE then (w.parsers n).notify .complete else []) := by
            unfold StreamParser.addMessage StreamParser.addFirst
            rw [hst]
            simp only [if_pos hd, StreamParser.getCrc, hc, bind, Except.bind]
            split
            · exact ⟨.WAITING_DATA_PACKET, _, rfl⟩
            · exact ⟨.STREAM_DONE, _, rfl⟩
          obtain ⟨st, rem, hadd⟩ := hadd
          refine sat_bind (lift_ok_good _ hadd) ?_
          rintro _ rfl
          refine tellConsumers_good (hR _) _ _ ?_ (good_setParser h n _ (h.texts n) (h.attached n) (fun _ => rfl) (fun _ => rfl))
          split
          · exact notify_good (h.attached n) _
          · intro c hc; cases hc

theorem runCallN_good (w : World) (c : Call) (h : Good S C strict w) : (runCallN P k w c).Sat N (Left strict) (Good S C strict) := by
  unfold runCallN
  split
  · exact sat_pure (good_startStream h _)
  · exact parserAddN_good hR w _ _ h
  · exact parserResetN_good (hR _) w _ h
  · split
    · next hc =>
      refine sat_lift ?_ (fun a ha => by cases ha)
      intro e he
      cases he
      exact ⟨fun hs => (by have := h.tx hs; rw [hc] at this; cases this), Or.inl rfl⟩
    · exact tell_good (hR _) w _ h
  · exact tell_good (hR _) w _ h

theorem runCallsN_good (w : World) (r : Res (List Call)) (hr : ∀ e, r = .error e → Left strict e) (h : Good S C strict w) :
    (runCallsN P k w r).Sat N (Left strict) (Good S C strict) :=
  sat_bind (Q := fun _ => True) (sat_lift hr (fun _ _ => trivial)) (fun _ _ => sat_foldlM _ _ _ _ (fun c _ u hu => runCallN_good hR u c hu) h)

theorem finishN_good (w : World) (h : Good S C strict w) :
    (finishN P k w).Sat N (Left strict) (fun v => Good S C strict v ∧ v.station.callbacks.configData = none) := by
  unfold finishN
  split
  · next hc => exact sat_pure ⟨h, hc⟩
  · exact sat_bind (parserResetN_good (hR _) w _ h) (fun v hv => sat_pure ⟨good_register hv none, rfl⟩)

theorem send8_good (w : World) (id : Identifier) (bytes : List Byte) (h : Good S C strict w) :
    (send8 P k w id bytes).Sat N (Left strict) (Good S C strict) := runCallsN_good hR w _ (txSend_left h _) h

theorem requestEngineN_good (w : World) (info : World → ShortInfo) (hi : strict → ∀ w, Good S C strict w → Named (info w)) (parser : Option Nat)
    (h : Good S C strict w) : (requestEngineN P k w info parser).Sat N (Left strict) (Good S C strict) := by
  unfold requestEngineN
  split
  · exact sat_pure h
  · split
    · exact sat_pure h
    · refine sat_bind (finishN_good hR w h) ?_
      rintro v ⟨hv, -⟩
      have copied : ∀ (m : List Byte) (n : Nat), n ≤ 9 → (strict → 0#8 ∈ m ∨ n ≤ m.length) →
          (Run.lift (strncpy ({} : Data).bytes m n)).Sat N (Left strict) (fun _ => True) := by
        intro m n hn hm
        refine sat_lift (left_mild (strncpy_mild _ _ _ hn).1 (fun hs => ?_)) (fun _ _ => trivial)
        obtain ⟨l, hl⟩ := strncpy_ok ({} : Data).bytes m n (hm hs) hn
        exact ⟨_, hl⟩
      have hv' : ∀ u, Good S C strict u → Good S C strict (match parser with | none => u.register parser | some n => (u.register parser).setParser n ((u.register parser).parsers n).startStream) := by
        intro u hu
        cases parser with
        | none => exact good_register hu _
        | some n => exact good_startStream (good_register hu _) n
      refine sat_bind (copied kEngine 9 (by decide) (fun _ => Or.inl (by decide +kernel))) ?_
      intro mem _
      refine sat_bind (send8_good hR _ _ mem (hv' v hv)) ?_
      intro w1 h1
      refine sat_bind (Q := fun _ => True) (sat_lift (left_mild (mild_strlen _) (fun hs => strlen_named (hi hs w1 h1))) (fun _ _ => trivial)) ?_
      intro len _
      refine sat_bind (copied _ 8 (by decide) (fun hs => Or.inl (hi hs w1 h1).2)) ?_
      intro mem _
      refine sat_bind (send8_good hR _ _ mem h1) ?_
      intro w2 h2
      refine sat_bind (Q := fun _ => True) ?_ (fun mem _ => send8_good hR _ _ mem h2)
      split
      · exact copied _ 8 (by decide) (fun hs => Or.inr (by rw [List.length_drop, (hi hs w2 h2).1]; decide))
      · exact sat_lift (fun e he => by cases he) (fun _ _ => trivial)

end

/-! ### One call -/

theorem good_consumer {w : World} (h : Good S C strict w) (c : Nat) (x : Consumer) (hx : (w.consumers c).Initialised → x.Initialised)
    (ha : w.consumers c ≠ .app) : Good S C strict (w.setConsumer c x) := by
  refine ⟨h.texts, h.attached, h.waiting, h.crcs, fun n hn => ?_, h.shaped, fun hs n hn => ?_, h.tx, h.engine, h.names⟩
  · exact setConsumer_init w c x hx n (h.init n hn)
  · have := h.app hs n hn
    simp only [setConsumer]
    split
    · next e => rw [e] at this; exact absurd this ha
    · exact this

theorem good_engine {w : World} (h : Good S C strict w) (n : Nat) (l : Locomotive) (h1 : 8 ≤ l.protocol.length) (h2 : strict → Named l.info) :
    Good S C strict { w with engines := w.engines.set n l } := by
  refine ⟨h.texts, h.attached, h.waiting, h.crcs, h.init, shaped_set h.shaped n l h1, h.app, h.tx, h.engine, fun hs e => ?_⟩
  show Named ((w.engines.set n l) e).info
  unfold Engines.set
  split
  · exact h2 hs
  · exact h.names hs e

section
variable {N : Prop} {P : Program} {k : World → Op → Run World}
  (hR : ∀ C w e, Good S C strict w → (react P k w e).Sat N (Left strict) (Good S C strict))
include hR

theorem stepN_good (w : World) (op : Op) (hop : Permitted S strict op) (h : Good S C strict w) :
    (stepN P k w op).Sat N (Left strict) (Good S C strict) := by
  have lifted : ∀ v, w.step op = .ok v → Good S C strict v → (Run.lift (w.step op)).Sat N (Left strict) (Good S C strict) := by
    intro v hv hg
    rw [hv]
    exact hg
  have fin : (finishN P k w).Sat N (Left strict) (Good S C strict) := sat_mono (finishN_good hR w h) (fun _ hv => hv.1)
  cases op with
  | begin_ u cbs =>
    refine sat_bind (finishN_good hR w h) ?_
    rintro v ⟨hv, hc⟩
    have : v.step (.begin_ u cbs) = .ok { v with station := { callbacks := cbs, senderHash := computeSenderHash (u.zeroExtend 32) } } := by
      simp only [step, stationUpdate, Station.begin_, Station.AbortCurrentConfigRequest, Station.FinishCurrentConfigRequest, hc, bind, Except.bind]
      rfl
    rw [this]
    exact good_station hv _ (fun hs => (hop hs).1) (fun hs => (hop hs).2)
  | handle f => exact runCallsN_good hR w _ (handle_left h _ f hop) h
  | finish => exact fin
  | abort => exact fin
  | notifyReceived => exact fin
  | requestEngine e p => exact requestEngineN_good hR w _ (fun hs v hv => hv.names hs e) p h
  | requestShortInfo i p => exact requestEngineN_good hR w _ (fun hs _ _ => hop hs) p h
  | requestEngineList off p =>
    refine sat_bind (finishN_good hR w h) ?_
    rintro v ⟨hv, -⟩
    refine sat_bind (Q := fun r => v.station.SameButParser r.1) (sat_lift (list_left hv off p) (fun r hr => requestEngineList_same hr)) ?_
    rintro ⟨s, calls⟩ ⟨q, rfl⟩
    exact runCallsN_good hR _ _ (by intro e he; cases he) (good_station hv _ hv.tx hv.engine)
  | requestDirection e => exact runCallsN_good hR w _ (txSend_left h _) h
  | sendDirection e d =>
    refine runCallsN_good hR w _ ?_ h
    unfold Station.SendEngineDirection
    split
    · exact txSend_left h _
    · intro e he; cases he
  | requestVelocity e => exact runCallsN_good hR w _ (txSend_left h _) h
  | sendVelocity e x => exact runCallsN_good hR w _ (txSend_left h _) h
  | requestFunction e f => exact runCallsN_good hR w _ (txSend_left h _) h
  | requestAllFunctions e => exact runCallsN_good hR w _ (allFunctions_left h _ _ _) h
  | sendFunction e f x => exact runCallsN_good hR w _ (txSend_left h _) h
  | sendEmergencyStop e => exact runCallsN_good hR w _ (txSend_left h _) h
  | sendStop => exact runCallsN_good hR w _ (txSend_left h _) h
  | sendGo => exact runCallsN_good hR w _ (txSend_left h _) h
  | sendAccessory a p d pw => exact runCallsN_good hR w _ (txSend_left h _) h
  | sendPacket f => exact runCallsN_good hR w _ (txSend_left h _) h
  | parserAdd n d => exact parserAddN_good hR w n d h
  | parserReset n => exact parserResetN_good (hR _) w n h
  | parserStart n c =>
    refine lifted _ rfl (good_setParser h n _ ?_ ?_ (h.waiting n) (h.crcs n))
    · obtain ⟨s, cons, b, hs, hb, ht, hc⟩ := h.texts n
      refine ⟨s, c, b, hs, hb, ?_, ?_⟩
      · show (w.parsers n).text.setConsumer c = _
        rw [ht]; rfl
      · rintro x rfl; exact hop
    · rintro x hx
      have : c = some x := hx
      subst this
      exact hop
  | parserStartStream n => exact lifted _ rfl (good_startStream h n)
  | setEngine c e =>
    cases hc : w.consumers c with
    | loco l =>
      refine lifted (w.setConsumer c (.loco { l with currentEngine := Ptr.ofOption e })) (by simp only [step, hc]) (good_consumer h c _ ?_ (by rw [hc]; intro h; cases h))
      rw [hc]
      intro hi
      exact ⟨by cases e <;> (intro h; cases h), hi.2⟩
    | list l => exact lifted w (by simp only [step, hc]) h
    | app => exact lifted w (by simp only [step, hc]) h
  | setEndCallback c cb =>
    cases hc : w.consumers c with
    | loco l =>
      refine lifted (w.setConsumer c (.loco { l with streamEndCallback := Ptr.ofOption cb })) (by simp only [step, hc]) (good_consumer h c _ ?_ (by rw [hc]; intro h; cases h))
      rw [hc]
      intro hi
      exact ⟨hi.1, by cases cb <;> (intro h; cases h)⟩
    | list l =>
      refine lifted (w.setConsumer c (.list { l with streamEndCallback := Ptr.ofOption cb })) (by simp only [step, hc]) (good_consumer h c _ ?_ (by rw [hc]; intro h; cases h))
      intro _
      show Ptr.ofOption cb ≠ .uninit
      cases cb <;> (intro h; cases h)
    | app => exact lifted w (by simp only [step, hc]) h
  | setStreamOffset c off =>
    cases hc : w.consumers c with
    | loco l => exact lifted w (by simp only [step, hc]) h
    | list l =>
      refine lifted (w.setConsumer c (.list (l.setStreamOffset off))) (by simp only [step, hc]) (good_consumer h c _ ?_ (by rw [hc]; intro h; cases h))
      rw [hc]; exact id
    | app => exact lifted w (by simp only [step, hc]) h
  | clearTable c =>
    cases hc : w.consumers c with
    | loco l => exact lifted w (by simp only [step, hc]) h
    | list l =>
      refine lifted (w.setConsumer c (.list l.clearTable)) (by simp only [step, hc]) (good_consumer h c _ ?_ (by rw [hc]; intro h; cases h))
      rw [hc]; exact id
    | app => exact lifted w (by simp only [step, hc]) h
  | resetList c =>
    cases hc : w.consumers c with
    | loco l => exact lifted w (by simp only [step, hc]) h
    | list l =>
      refine lifted (w.setConsumer c (.list l.reset)) (by simp only [step, hc]) (good_consumer h c _ ?_ (by rw [hc]; intro h; cases h))
      rw [hc]; exact id
    | app => exact lifted w (by simp only [step, hc]) h
  | setName e name =>
    obtain ⟨h1, h2⟩ := setName_mild (w.engines e) name
    have hok : strict → ∃ l, (w.engines e).setName name = .ok l ∧ Named l.info := by
      intro hs
      obtain ⟨l, hl⟩ := strncpy_ok (List.replicate 33 0#8) name 32 (hop hs) (by simp)
      refine ⟨_, by
        unfold Locomotive.setName
        show (strncpy (List.replicate 33 0#8) name 32 >>= _) = _
        rw [hl]; rfl, ?_, ?_⟩
      · show (l ++ (List.replicate 33 0#8).drop 32).length = 33
        have := (strncpy_mild (List.replicate 33 0#8) name 32 (by simp)).2 _ hl
        rw [this]; simp
      · show (0#8 : Byte) ∈ l ++ (List.replicate 33 0#8).drop 32
        exact List.mem_append_right _ (by decide)
    show (Run.lift ((w.engines e).setName name >>= fun l => .ok { w with engines := w.engines.set e l })).Sat _ _ _
    refine sat_lift (left_mild (mild_bind h1 (fun _ _ => mild_ok _)) (fun hs => ?_)) (fun v hv => ?_)
    · obtain ⟨l, hl, -⟩ := hok hs
      rw [hl]
      exact ⟨_, rfl⟩
    · obtain ⟨l, hl, hv⟩ := bind_ok hv
      cases hv
      refine good_engine h e l (h2 l hl).1 (fun hs => ?_)
      obtain ⟨l', hl', hn⟩ := hok hs
      rw [hl] at hl'
      cases hl'
      exact hn
  | assignEngine e l => exact lifted _ rfl (good_engine h e l hop.1 hop.2)

end

/-- What the program's callbacks call is permitted. -/
def PermittedProgram (S : Nat → Prop) (strict : Prop) (P : Program) : Prop := ∀ w e, ∀ op ∈ P w e, Permitted S strict op

theorem nested_good {P : Program} (hP : PermittedProgram S strict P) (depth : Nat) :
    ∀ (C : Nat → Prop) (w : World) (op : Op), Permitted S strict op → Good S C strict w →
      (nested P depth w op).Sat True (Left strict) (Good S C strict) := by
  induction depth with
  | zero => intro C w op _ _; exact trivial
  | succ depth ih =>
    intro C w op hop h
    refine stepN_good ?_ w op hop h
    intro C w e h
    exact sat_foldlM _ _ _ _ (fun op hm u hu => ih C u op (hP w e op hm) hu) h

theorem runN_good {P : Program} (hP : PermittedProgram S strict P) (depth : Nat) (w : World) (ops : List Op)
    (hops : ∀ op ∈ ops, Permitted S strict op) (h : Good S C strict w) : (runN P depth w ops).Sat True (Left strict) (Good S C strict) := by
  refine sat_foldlM _ _ _ _ (fun op hm u hu => stepN_good ?_ u op (hops op hm) hu) h
  intro C w e h
  exact sat_foldlM _ _ _ _ (fun op hm u hu => nested_good hP depth C u op (hP w e op hm) hu) h

end World

end RR32
