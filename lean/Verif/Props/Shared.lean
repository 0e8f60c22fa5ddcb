import Verif.Proofs.Shared

/-! # C93: buffers that share memory -/

set_option autoImplicit false

namespace RR32

open Spec

namespace Shared

/-- What a step may change. -/
structure Effect (s s' : Shared) (op : ShareOp) : Prop where
  fits : ∀ k, Fits s'.heap (s'.mgr k)
  sizes : ∀ o, (s'.heap o).length = (s.heap o).length
  bytes : ∀ o x, (∀ k, Writes op k → ¬InWindow (s.mgr k) o x) → (s'.heap o)[x]? = (s.heap o)[x]?
  same : ∀ k, ¬Writes op k → ¬Assigns op k → s'.mgr k = s.mgr k
  window : ∀ k, ¬Assigns op k → (s'.mgr k).obj = (s.mgr k).obj ∧ (s'.mgr k).off = (s.mgr k).off ∧ (s'.mgr k).cap = (s.mgr k).cap

theorem effect_put {s : Shared} {i : Nat} {b : BufferManager} {l : List Byte} {op : ShareOp} (h : ∀ k, Fits s.heap (s.mgr k))
    (hg : Goes (s.buf i) b l) (hl : Local (s.buf i) b.mem) (hw : ∀ k, Writes op k ↔ k = i) : Effect s (s.put i b) op := by
  refine ⟨put_fits h hl hg.ok hg.cap, fun o => (put_bytes (h i) hl o).1, ?_, ?_, fun k _ => put_mgr s i k b⟩
  · intro o x hx
    exact (put_bytes (h i) hl o).2 x (hx i ((hw i).mpr rfl))
  · intro k hk _
    exact put_other s i k b (fun e => hk ((hw k).mpr e))

theorem effect_refl {s : Shared} {op : ShareOp} (h : ∀ k, Fits s.heap (s.mgr k)) : Effect s s op :=
  ⟨h, fun _ => rfl, fun _ _ _ => rfl, fun _ _ _ => rfl, fun _ _ => ⟨rfl, rfl, rfl⟩⟩

theorem effect_setMgr {s : Shared} {op : ShareOp} {d : Nat} {m : Mgr} (h : ∀ k, Fits s.heap (s.mgr k)) (hm : Fits s.heap m)
    (hd : Assigns op d) : Effect s (s.setMgr d m) op := by
  have he : ∀ k, ¬Assigns op k → (s.setMgr d m).mgr k = s.mgr k := by
    intro k hk
    simp only [setMgr]
    rw [if_neg (fun e : k = d => hk (by rw [e]; exact hd))]
  refine ⟨?_, fun _ => rfl, fun _ _ _ => rfl, fun k _ hk => he k hk, fun k hk => by rw [he k hk]; exact ⟨rfl, rfl, rfl⟩⟩
  intro k
  simp only [setMgr]
  split
  · exact hm
  · exact h k

theorem put_put {s : Shared} {i : Nat} {b c : BufferManager} (h : Fits s.heap (s.mgr i)) : (s.put i b).put i c = s.put i c := by
  have h3 := h.inside
  simp only [put, if_pos]
  congr 1
  · funext o
    split
    · next e =>
      subst e
      rw [List.take_left' (by simp; omega)]
    · rfl
  · funext k
    split <;> rfl

/-- A terminated string in the window. -/
theorem window_string {s : Shared} {j k : Nat} (hk : (window s j)[k]? = some 0#8) :
    ∃ rest, (s.buf j).mem = (window s j).takeWhile (· ≠ 0#8) ++ 0#8 :: rest := by
  have hm : (s.buf j).mem = window s j ++ (s.buf j).mem.drop (s.mgr j).cap := (List.take_append_drop _ _).symm
  generalize hv : window s j = v at *
  obtain ⟨rest, hr⟩ : ∃ rest, v = v.takeWhile (· ≠ 0#8) ++ 0#8 :: rest := by
    clear hm hv
    induction v generalizing k with
    | nil => simp at hk
    | cons c cs ih =>
      by_cases hc : c = 0#8
      · subst hc; exact ⟨cs, by simp⟩
      · cases k with
        | zero => simp at hk; exact absurd hk hc
        | succ k =>
          obtain ⟨rest, hr⟩ := ih (k := k) (by simpa using hk)
          refine ⟨rest, ?_⟩
          rw [List.takeWhile_cons, if_pos (by simpa using hc)]
          conv => lhs; rw [hr]
          rfl
  refine ⟨rest ++ (s.buf j).mem.drop (s.mgr j).cap, ?_⟩
  conv => lhs; rw [hm, hr]
  simp

theorem noNul_takeWhile (l : List Byte) : ∀ c ∈ l.takeWhile (· ≠ 0#8), c ≠ 0#8 := by
  have := List.all_takeWhile (p := (· ≠ 0#8)) (l := l)
  intro c hc
  simpa using List.all_eq_true.mp this c hc

theorem window_congr {s t : Shared} {k : Nat} (ho : (t.mgr k).obj = (s.mgr k).obj) (hf : (t.mgr k).off = (s.mgr k).off)
    (hc : (t.mgr k).cap = (s.mgr k).cap) (hb : ∀ o x, InWindow (s.mgr k) o x → (t.heap o)[x]? = (s.heap o)[x]?) :
    window t k = window s k := by
  unfold window
  rw [ho, hf, hc]
  apply List.ext_getElem?
  intro x
  rw [List.getElem?_take, List.getElem?_take]
  split
  · rw [List.getElem?_drop, List.getElem?_drop]
    exact hb _ _ ⟨rfl, by omega, by omega⟩
  · rfl

/-- Storing a string from other memory. -/
theorem setFromAt_ok {s : Shared} {i j : Nat} (h : ∀ k, Fits s.heap (s.mgr k)) (hc : 1 ≤ (s.mgr i).cap) (ha : Apart (s.mgr i) (s.mgr j))
    {k : Nat} (hk : (window s j)[k]? = some 0#8) :
    ∃ b, s.setFromAt i j = .ok (s.put i b) ∧
      Goes (s.buf i) b (((window s j).takeWhile (· ≠ 0#8)).take ((s.mgr i).cap - 1)) ∧ Local (s.buf i) b.mem := by
  obtain ⟨e, he, hge, -⟩ := C25_erase (s.buf i) (h i).cap_le (bufOk (h i)).mem_le
  have hle := local_erase he
  have hcap : e.cap = (s.mgr i).cap := hge.cap
  have hij : i ≠ j := by
    rintro rfl
    exact ha (s.mgr i).obj (s.mgr i).off ⟨rfl, by omega, by omega⟩ ⟨rfl, by omega, by omega⟩
  have hmj : (s.put i e).mgr j = s.mgr j := put_other s i j e (fun h => hij h.symm)
  have hw : window (s.put i e) j = window s j :=
    window_congr (by rw [hmj]) (by rw [hmj]) (by rw [hmj]) (fun o x hx => (put_bytes (h i) hle o).2 x (fun hi => ha o x hi hx))
  obtain ⟨rest, hrest⟩ := window_string (s := s.put i e) (j := j) (k := k) (by rw [hw]; exact hk)
  rw [hw] at hrest
  have hn := noNul_takeWhile (window s j)
  have htl : ((window s j).takeWhile (· ≠ 0#8)).length < (s.mgr j).cap := by
    obtain ⟨r, hr⟩ := window_string (s := s) (j := j) hk
    have h1 : window s j = ((s.buf j).mem).take (s.mgr j).cap := rfl
    have h2 : (window s j).length ≤ (s.mgr j).cap := by rw [h1]; simp; omega
    have h3 : ∃ t, window s j = (window s j).takeWhile (· ≠ 0#8) ++ t ∧ t ≠ [] := by
      refine ⟨(window s j).dropWhile (· ≠ 0#8), List.takeWhile_append_dropWhile.symm, ?_⟩
      intro hd
      have hall : window s j = (window s j).takeWhile (· ≠ 0#8) := by
        conv => lhs; rw [← List.takeWhile_append_dropWhile (p := (· ≠ 0#8)) (l := window s j), hd, List.append_nil]
      obtain ⟨hlt, hget⟩ := List.getElem?_eq_some_iff.mp hk
      exact hn 0#8 (by rw [← hall, ← hget]; exact List.getElem_mem _) rfl
    obtain ⟨t, ht, hne⟩ := h3
    have h4 := congrArg List.length ht
    rw [List.length_append] at h4
    have := List.length_pos_iff.mpr hne
    omega
  obtain ⟨b, hb, hg, -⟩ := C25_set (s.buf i) (bufOk (h i)) hc ((window s j).takeWhile (· ≠ 0#8)) rest hn
  have hl := local_set hb
  refine ⟨b, ?_, hg, hl⟩
  unfold BufferManager.set at hb
  rw [he] at hb
  simp only [bind, Except.bind] at hb
  rw [if_neg (by omega)] at hb
  unfold strncpy at hb
  simp only [bind, Except.bind] at hb
  unfold setFromAt
  rw [he]
  simp only [SRes.of, bind, Except.bind]
  rw [if_neg (by omega), hrest]
  cases h1 : strncpyBytes (e.cap - 1) ((window s j).takeWhile (· ≠ 0#8) ++ 0#8 :: rest) with
  | error f => rw [h1] at hb; cases hb
  | ok l =>
    rw [h1] at hb
    simp only at hb ⊢
    have htw : (((window s j).takeWhile (· ≠ 0#8)) ++ 0#8 :: rest).takeWhile (· ≠ 0#8) = (window s j).takeWhile (· ≠ 0#8) := by
      rw [List.takeWhile_append_of_pos (fun a ha => by simpa using hn a ha)]
      simp
    rw [htw, if_neg]
    · cases h2 : poke e.mem l with
      | error f => rw [h2] at hb; cases hb
      | ok m =>
        rw [h2] at hb
        simp only at hb ⊢
        cases h3 : strlen m with
        | error f => rw [h3] at hb; cases hb
        | ok n =>
          rw [h3] at hb
          cases hb
          simp only [put_put (h i)]
    · intro ho
      unfold overlapping at ho
      simp only [Bool.and_eq_true, decide_eq_true_eq] at ho
      obtain ⟨e1, e2, e3⟩ := put_mgr s i i e
      rw [e1, e2, hmj] at ho
      obtain ⟨⟨⟨⟨q1, q2⟩, q3⟩, q4⟩, q5⟩ := ho
      refine ha (s.mgr i).obj (max (s.mgr i).off (s.mgr j).off) ⟨rfl, ?_, ?_⟩ ⟨q1, ?_, ?_⟩ <;> omega

/-- One permitted step. -/
theorem step_effect (s : Shared) (h : ∀ k, Fits s.heap (s.mgr k)) (op : ShareOp) (hp : Permitted s op) :
    ∃ s', s.step op = .ok s' ∧ Effect s s' op := by
  cases op with
  | make d obj off cap len => exact ⟨_, rfl, effect_setMgr h hp rfl⟩
  | sub d i start stop => exact ⟨_, rfl, effect_setMgr h (sub_fits (h i) start stop) rfl⟩
  | assign d i => exact ⟨_, rfl, effect_setMgr h (h i) rfl⟩
  | pushChar i c =>
    obtain ⟨b, hb, hg⟩ := C25_push (s.buf i) (bufOk (h i)) c
    exact ⟨_, (by simp only [step, hb]; rfl), effect_put h hg (local_char hb) (fun _ => Iff.rfl)⟩
  | append i j =>
    obtain ⟨b, hb, hg, hl⟩ := pushFrom_ok (h i) (h j) hp
    exact ⟨_, (by simp only [step, hb]; rfl), effect_put h hg hl (fun _ => Iff.rfl)⟩
  | appendView i j start stop =>
    obtain ⟨b, hb, hg, hl⟩ := pushFrom_ok (h i) (sub_fits (h j) start stop) hp
    exact ⟨_, (by simp only [step, hb]; rfl), effect_put h hg hl (fun _ => Iff.rfl)⟩
  | move i j =>
    obtain ⟨b, hb, hg, hl⟩ := pushFrom_ok (h i) (h j) hp
    have e1 := effect_put (op := .append i j) h hg hl (fun _ => Iff.rfl)
    obtain ⟨c, hc, hg2, hl2⟩ := popAt_ok (s := s.put i b) (i := j)
      (min ((s.mgr i).cap - (shows s i).length) (content ((s.mgr j).look s.heap)).length) (e1.fits j)
    have e2 := effect_put (op := .pop j 0) e1.fits hg2 hl2 (fun _ => Iff.rfl)
    refine ⟨_, (by simp only [step, hb, bind, Except.bind]; exact hc), e2.fits, fun o => by rw [e2.sizes, e1.sizes], ?_, ?_, ?_⟩
    · intro o x hx
      rw [e2.bytes o x, e1.bytes o x]
      · intro k hk; exact hx k (Or.inl hk)
      · intro k hk hin
        obtain ⟨a1, a2, a3⟩ := e1.window k (fun h => h)
        unfold InWindow at hin
        rw [a1, a2, a3] at hin
        exact hx k (Or.inr hk) hin
    · intro k hk _
      rw [e2.same k (fun h => hk (Or.inr h)) (fun h => h), e1.same k (fun h => hk (Or.inl h)) (fun h => h)]
    · intro k _
      obtain ⟨a1, a2, a3⟩ := e1.window k (fun h => h)
      obtain ⟨b1, b2, b3⟩ := e2.window k (fun h => h)
      exact ⟨b1.trans a1, b2.trans a2, b3.trans a3⟩
  | pop i n =>
    obtain ⟨b, hb, hg, hl⟩ := popAt_ok n (h i)
    exact ⟨_, hb, effect_put h hg hl (fun _ => Iff.rfl)⟩
  | erase i =>
    obtain ⟨b, hb, hg, -⟩ := C25_erase (s.buf i) (h i).cap_le (bufOk (h i)).mem_le
    exact ⟨_, (by simp only [step, hb]; rfl), effect_put h hg (local_erase hb) (fun _ => Iff.rfl)⟩
  | set i text rest =>
    obtain ⟨b, hb, hg, -⟩ := C25_set (s.buf i) (bufOk (h i)) hp.1 text rest hp.2
    exact ⟨_, (by simp only [step, hb]; rfl), effect_put h hg (local_set hb) (fun _ => Iff.rfl)⟩
  | setFrom i j =>
    obtain ⟨h1, h2, k, -, hk⟩ := hp
    obtain ⟨b, hb, hg, hl⟩ := setFromAt_ok h h1 h2 hk
    exact ⟨_, hb, effect_put h hg hl (fun _ => Iff.rfl)⟩
  | write i k c =>
    have hne : content (s.buf i) ≠ [] := by
      have hp : 0 < (s.mgr i).len := hp
      have := (h i).inside
      have := (h i).len_le
      intro he
      have := congrArg List.length he
      simp [content, buf, Mgr.look] at this
      omega
    obtain ⟨b, hb, hg⟩ := C25_write (s.buf i) (bufOk (h i)) hne k c
    exact ⟨_, (by simp only [step, hb]; rfl), effect_put h hg (local_write (bufOk (h i)) hp hb) (fun _ => Iff.rfl)⟩
  | read i k =>
    have hne : content (s.buf i) ≠ [] := by
      have hp : 0 < (s.mgr i).len := hp
      have := (h i).inside
      have := (h i).len_le
      intro he
      have := congrArg List.length he
      simp [content, buf, Mgr.look] at this
      omega
    obtain ⟨_, hb⟩ := C25_read (s.buf i) (bufOk (h i)) hne k
    exact ⟨s, (by simp only [step, hb]; rfl), effect_refl h⟩
  | find i chars rest offset =>
    obtain ⟨_, hb, -⟩ := C27_chars (s.buf i) (bufOk (h i)) chars rest hp.1 hp.2 offset
    exact ⟨s, (by simp only [step, hb]; rfl), effect_refl h⟩
  | findChar i c offset =>
    obtain ⟨_, hb, -⟩ := C27_char (s.buf i) (bufOk (h i)) c offset
    exact ⟨s, (by simp only [step, hb]; rfl), effect_refl h⟩

theorem run_cons (s : Shared) (op : ShareOp) (ops : List ShareOp) : s.run (op :: ops) = s.step op >>= fun t => t.run ops := rfl

end Shared

/-- C93. However buffers share memory: a program that respects the rules never leaves an array and never copies between overlapping ranges.
All buffers keep a window inside their array, with their content in it. -/
theorem C93_safe (s : Shared) (h : ∀ k, Fits s.heap (s.mgr k)) (ops : List ShareOp) (hp : PermittedRun s ops) :
    ∃ s', s.run ops = .ok s' ∧ (∀ k, Fits s'.heap (s'.mgr k)) ∧ ∀ o, (s'.heap o).length = (s.heap o).length := by
  induction ops generalizing s with
  | nil => exact ⟨s, rfl, h, fun _ => rfl⟩
  | cons op ops ih =>
    obtain ⟨t, h1, he⟩ := Shared.step_effect s h op hp.1
    obtain ⟨u, h2, h3, h4⟩ := ih t he.fits (hp.2 t h1)
    refine ⟨u, ?_, h3, fun o => by rw [h4, he.sizes]⟩
    rw [Shared.run_cons, h1]
    exact h2

/-- C93: appending and moving. They are undefined exactly if a byte that is read is also written; nothing else can go wrong. -/
theorem C93_overlap (s : Shared) (h : ∀ k, Fits s.heap (s.mgr k)) (i j start stop : Nat) :
    ((s.step (.append i j) = .error .overlap ↔ Clash (s.mgr i) (s.mgr j)) ∧
      (s.step (.move i j) = .error .overlap ↔ Clash (s.mgr i) (s.mgr j)) ∧
      (s.step (.appendView i j start stop) = .error .overlap ↔ Clash (s.mgr i) ((s.mgr j).sub start stop))) ∧
    (¬Clash (s.mgr i) (s.mgr j) → (∃ s', s.step (.append i j) = .ok s') ∧ ∃ s', s.step (.move i j) = .ok s') ∧
    (¬Clash (s.mgr i) ((s.mgr j).sub start stop) → ∃ s', s.step (.appendView i j start stop) = .ok s') := by
  have k1 : ¬Clash (s.mgr i) (s.mgr j) → (∃ s', s.step (.append i j) = .ok s') ∧ ∃ s', s.step (.move i j) = .ok s' := by
    intro hc
    obtain ⟨a, ha, -⟩ := Shared.step_effect s h (.append i j) hc
    obtain ⟨b, hb, -⟩ := Shared.step_effect s h (.move i j) hc
    exact ⟨⟨a, ha⟩, b, hb⟩
  have k2 : ¬Clash (s.mgr i) ((s.mgr j).sub start stop) → ∃ s', s.step (.appendView i j start stop) = .ok s' := by
    intro hc
    obtain ⟨a, ha, -⟩ := Shared.step_effect s h (.appendView i j start stop) hc
    exact ⟨a, ha⟩
  refine ⟨⟨⟨?_, ?_⟩, ⟨?_, ?_⟩, ?_, ?_⟩, k1, k2⟩
  · intro he
    refine Classical.byContradiction fun hc => ?_
    obtain ⟨a, ha⟩ := (k1 hc).1
    rw [ha] at he; cases he
  · intro hc
    simp only [Shared.step, Shared.pushFrom_clash (h i) hc]
    rfl
  · intro he
    refine Classical.byContradiction fun hc => ?_
    obtain ⟨a, ha⟩ := (k1 hc).2
    rw [ha] at he; cases he
  · intro hc
    simp only [Shared.step, Shared.pushFrom_clash (h i) hc]
    rfl
  · intro he
    refine Classical.byContradiction fun hc => ?_
    obtain ⟨a, ha⟩ := k2 hc
    rw [ha] at he; cases he
  · intro hc
    simp only [Shared.step, Shared.pushFrom_clash (h i) hc]
    rfl

/-- C93: when that cannot happen: if the windows are apart, for a buffer and itself, and for a buffer and a view inside its own content. -/
theorem C93_no_overlap (heap : Nat → List Byte) (a b : Mgr) (ha : Fits heap a) (hb : Fits heap b) (start stop : Nat) :
    (Apart a b → ¬Clash a b ∧ ¬Clash a (b.sub start stop)) ∧ ¬Clash a a ∧ (stop ≤ a.len → ¬Clash a (a.sub start stop)) := by
  have h1 := ha.len_le
  have h2 := ha.cap_le
  have h3 := hb.len_le
  have h4 := hb.cap_le
  refine ⟨fun hap => ⟨?_, ?_⟩, ?_, ?_⟩
  · rintro ⟨e, x, p1, p2, p3, p4⟩
    exact hap a.obj x ⟨rfl, by omega, by omega⟩ ⟨e, by omega, by omega⟩
  · rintro ⟨e, x, p1, p2, p3, p4⟩
    refine hap a.obj x ⟨rfl, by omega, by omega⟩ ⟨e, ?_, ?_⟩
    · simp only [Mgr.sub] at p3
      omega
    · simp only [Mgr.sub, u8] at p3 p4
      revert p3 p4
      repeat' split
      all_goals (intro p3 p4; omega)
  · rintro ⟨-, x, p1, p2, p3, p4⟩
    omega
  · rintro hs ⟨-, x, p1, p2, p3, p4⟩
    simp only [Mgr.sub, u8] at p2 p3 p4
    revert p2 p3 p4
    repeat' split
    all_goals (intro p2 p3 p4; omega)

/-- C93: what a step leaves alone: every byte outside the windows of the buffers whose function writes, every buffer that is not mentioned,
and so what a buffer shows whose window is apart from theirs. -/
theorem C93_frame (s : Shared) (h : ∀ k, Fits s.heap (s.mgr k)) (op : ShareOp) (hp : Permitted s op) (s' : Shared) (hs : s.step op = .ok s') :
    (∀ o x, (∀ k, Writes op k → ¬InWindow (s.mgr k) o x) → (s'.heap o)[x]? = (s.heap o)[x]?) ∧
    (∀ k, ¬Writes op k → ¬Assigns op k → s'.mgr k = s.mgr k) ∧
    ∀ k, ¬Writes op k → ¬Assigns op k → (∀ w, Writes op w → Apart (s.mgr k) (s.mgr w)) → shows s' k = shows s k := by
  obtain ⟨t, h1, he⟩ := Shared.step_effect s h op hp
  rw [h1] at hs
  cases hs
  refine ⟨he.bytes, he.same, ?_⟩
  intro k hk ha hap
  exact Shared.shows_congr (h k) (he.same k hk ha) (fun o x hx => he.bytes o x (fun w hw => hap w hw o x hx))

end RR32
