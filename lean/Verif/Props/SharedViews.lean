import Verif.Props.Shared

/-! # C93: buffers that are apart, and views -/

set_option autoImplicit false

namespace RR32

open Spec

namespace Shared

theorem shows_put {s : Shared} {i : Nat} {b : BufferManager} {l : List Byte} (h : ∀ k, Fits s.heap (s.mgr k))
    (hap : ∀ k, k ≠ i → Apart (s.mgr k) (s.mgr i)) (hg : Goes (s.buf i) b l) (hl : Local (s.buf i) b.mem) (m : Nat) :
    shows (s.put i b) m = if m = i then l else shows s m := by
  split
  · next e =>
    subst e
    rw [← content_buf, put_buf (h m) hg.cap, hg.content]
  · next e =>
    exact shows_congr (h m) (put_other s i m b e) (fun o x hx => (put_bytes (h i) hl o).2 x (hap m e o x hx))

theorem shows_length {s : Shared} {i : Nat} (h : Fits s.heap (s.mgr i)) : (shows s i).length = (s.mgr i).len := by
  have h1 := h.len_le
  have h3 := h.inside
  simp only [shows, List.length_take, List.length_drop]
  omega

theorem apart_congr {a a' b b' : Mgr} (h : Apart a b) (ha : a'.obj = a.obj ∧ a'.off = a.off ∧ a'.cap = a.cap)
    (hb : b'.obj = b.obj ∧ b'.off = b.off ∧ b'.cap = b.cap) : Apart a' b' := by
  intro o x h1 h2
  unfold InWindow at h1 h2
  rw [ha.1, ha.2.1, ha.2.2] at h1
  rw [hb.1, hb.2.1, hb.2.2] at h2
  exact h o x h1 h2

/-- One operation on buffers that are apart. -/
theorem apart_step (s : Shared) (h : ∀ k, Fits s.heap (s.mgr k)) (hap : ∀ i j, i ≠ j → Apart (s.mgr i) (s.mgr j)) (op : BufOp)
    (hl : LegalApart (fun m => (s.mgr m).cap) (shows s) op) :
    ∃ s', s.step (shareOp op) = .ok s' ∧ (∀ k, Fits s'.heap (s'.mgr k)) ∧
      (∀ k, (s'.mgr k).obj = (s.mgr k).obj ∧ (s'.mgr k).off = (s.mgr k).off ∧ (s'.mgr k).cap = (s.mgr k).cap) ∧
      (∀ o x, (∀ k, ¬InWindow (s.mgr k) o x) → (s'.heap o)[x]? = (s.heap o)[x]?) ∧
      shows s' = apartStep (fun m => (s.mgr m).cap) (shows s) op := by
  have hone : ∀ (i : Nat) (b : BufferManager) (l : List Byte), Goes (s.buf i) b l → Local (s.buf i) b.mem →
      (∀ k, Fits (s.put i b).heap ((s.put i b).mgr k)) ∧
      (∀ k, ((s.put i b).mgr k).obj = (s.mgr k).obj ∧ ((s.put i b).mgr k).off = (s.mgr k).off ∧ ((s.put i b).mgr k).cap = (s.mgr k).cap) ∧
      (∀ o x, (∀ k, ¬InWindow (s.mgr k) o x) → ((s.put i b).heap o)[x]? = (s.heap o)[x]?) ∧
      shows (s.put i b) = fun m => if m = i then l else shows s m := by
    intro i b l hg hloc
    exact ⟨put_fits h hloc hg.ok hg.cap, fun k => put_mgr s i k b, fun o x hx => (put_bytes (h i) hloc o).2 x (hx i),
      funext (shows_put h (fun k hk => hap k i hk) hg hloc)⟩
  have hclash : ∀ i j, ¬Clash (s.mgr i) (s.mgr j) := by
    intro i j
    by_cases e : i = j
    · subst e; exact (C93_no_overlap s.heap _ _ (h i) (h i) 0 0).2.1
    · exact ((C93_no_overlap s.heap _ _ (h i) (h j) 0 0).1 (hap i j e)).1
  have hne : ∀ i, shows s i ≠ [] → content (s.buf i) ≠ [] := fun _ h => h
  cases op with
  | pushChar i c =>
    obtain ⟨b, hb, hg⟩ := C25_push (s.buf i) (bufOk (h i)) c
    exact ⟨_, (by simp only [shareOp, step, hb]; rfl), hone i b _ hg (local_char hb)⟩
  | append i j start stop =>
    obtain ⟨h1, h2⟩ := hl
    have hc : ¬Clash (s.mgr i) ((s.mgr j).sub start stop) := by
      by_cases e : i = j
      · subst e; exact (C93_no_overlap s.heap _ _ (h i) (h i) start stop).2.2 (by rw [shows_length (h i)] at h2; exact h2)
      · exact ((C93_no_overlap s.heap _ _ (h i) (h j) start stop).1 (hap i j e)).2
    obtain ⟨b, hb, hg, hloc⟩ := pushFrom_ok (h i) (sub_fits (h j) start stop) hc
    rw [sub_look, show content (((s.mgr j).look s.heap).subBufferManager start stop) = ((shows s j).take stop).drop start from
      C28_content (s.buf j) (bufOk (h j)) start stop h2] at hg
    exact ⟨_, (by simp only [shareOp, step, hb]; rfl), hone i b _ hg hloc⟩
  | move i j =>
    obtain ⟨b, hb, hg, hloc⟩ := pushFrom_ok (h i) (h j) (hclash i j)
    obtain ⟨f1, f2, f3, f4⟩ := hone i b _ hg hloc
    obtain ⟨c, hc, hg2, hloc2⟩ := popAt_ok (s := s.put i b) (i := j)
      (min ((s.mgr i).cap - (shows s i).length) (content ((s.mgr j).look s.heap)).length) (f1 j)
    refine ⟨_, (by simp only [shareOp, step, hb, bind, Except.bind]; exact hc), put_fits f1 hloc2 hg2.ok hg2.cap, ?_, ?_, ?_⟩
    · intro k
      obtain ⟨a1, a2, a3⟩ := put_mgr (s.put i b) j k c
      obtain ⟨b1, b2, b3⟩ := f2 k
      exact ⟨a1.trans b1, a2.trans b2, a3.trans b3⟩
    · intro o x hx
      rw [(put_bytes (f1 j) hloc2 o).2 x, f3 o x hx]
      intro hin
      unfold InWindow at hin
      rw [(f2 j).1, (f2 j).2.1, (f2 j).2.2] at hin
      exact hx j hin
    · funext m
      rw [shows_put f1 (fun k hk => apart_congr (hap k j hk) (f2 k) (f2 j)) hg2 hloc2 m]
      rw [f4]
      have hlj : content ((s.mgr j).look s.heap) = shows s j := rfl
      rw [hlj]
      generalize hk : (s.mgr i).cap - (shows s i).length = k
      have hd : ∀ l : List Byte, l.drop (min k l.length) = l.drop k := by
        intro l
        by_cases hle : k ≤ l.length
        · rw [Nat.min_eq_left hle]
        · rw [Nat.min_eq_right (by omega), List.drop_eq_nil_of_le (Nat.le_refl _), List.drop_eq_nil_of_le (by omega)]
      unfold apartStep
      by_cases e : i = j
      · subst e
        simp only [if_pos, hk]
        by_cases em : m = i
        · simp only [em, if_pos]
          rw [List.drop_append_of_le_length (by omega), hd]
        · simp only [if_neg em]
      · simp only [if_neg e, listStep, hk]
        by_cases em : m = j
        · simp only [em, if_pos, if_neg (fun h : j = i => e h.symm)]
          rw [hd]
        · simp only [if_neg em]
  | pop i n =>
    obtain ⟨b, hb, hg, hloc⟩ := popAt_ok n (h i)
    exact ⟨_, hb, hone i b _ hg hloc⟩
  | erase i =>
    obtain ⟨b, hb, hg, -⟩ := C25_erase (s.buf i) (h i).cap_le (bufOk (h i)).mem_le
    exact ⟨_, (by simp only [shareOp, step, hb]; rfl), hone i b _ hg (local_erase hb)⟩
  | set i text rest =>
    obtain ⟨b, hb, hg, -⟩ := C25_set (s.buf i) (bufOk (h i)) hl.1 text rest hl.2
    exact ⟨_, (by simp only [shareOp, step, hb]; rfl), hone i b _ hg (local_set hb)⟩
  | write i k c =>
    have hpos : 0 < (s.mgr i).len := by
      have := List.length_pos_iff.mpr (show shows s i ≠ [] from hl)
      rw [shows_length (h i)] at this
      exact this
    obtain ⟨b, hb, hg⟩ := C25_write (s.buf i) (bufOk (h i)) (hne i hl) k c
    exact ⟨_, (by simp only [shareOp, step, hb]; rfl), hone i b _ hg (local_write (bufOk (h i)) hpos hb)⟩
  | read i k =>
    obtain ⟨_, hb⟩ := C25_read (s.buf i) (bufOk (h i)) (hne i hl) k
    exact ⟨s, (by simp only [shareOp, step, hb]; rfl), h, fun _ => ⟨rfl, rfl, rfl⟩, fun _ _ _ => rfl, rfl⟩
  | find i chars rest offset =>
    obtain ⟨_, hb, -⟩ := C27_chars (s.buf i) (bufOk (h i)) chars rest hl.1 hl.2 offset
    exact ⟨s, (by simp only [shareOp, step, hb]; rfl), h, fun _ => ⟨rfl, rfl, rfl⟩, fun _ _ _ => rfl, rfl⟩
  | findChar i c offset =>
    obtain ⟨_, hb, -⟩ := C27_char (s.buf i) (bufOk (h i)) c offset
    exact ⟨s, (by simp only [shareOp, step, hb]; rfl), h, fun _ => ⟨rfl, rfl, rfl⟩, fun _ _ _ => rfl, rfl⟩

end Shared

/-- C93. Buffers whose windows are apart, even within one array: every legal program acts on what they show as on lists, a buffer may be
appended to itself and moved into itself, and no byte outside the windows changes. -/
theorem C93_apart (s : Shared) (h : ∀ k, Fits s.heap (s.mgr k)) (hap : ∀ i j, i ≠ j → Apart (s.mgr i) (s.mgr j)) (ops : List BufOp)
    (hl : LegalApartRun (fun m => (s.mgr m).cap) (shows s) ops) :
    ∃ s', s.run (ops.map shareOp) = .ok s' ∧ shows s' = apartRun (fun m => (s.mgr m).cap) (shows s) ops ∧
      (∀ o x, (∀ k, ¬InWindow (s.mgr k) o x) → (s'.heap o)[x]? = (s.heap o)[x]?) := by
  induction ops generalizing s with
  | nil => exact ⟨s, rfl, rfl, fun _ _ _ => rfl⟩
  | cons op ops ih =>
    obtain ⟨t, h1, h2, h3, h4, h5⟩ := Shared.apart_step s h hap op hl.1
    have hcap : (fun m => (t.mgr m).cap) = fun m => (s.mgr m).cap := funext fun m => (h3 m).2.2
    obtain ⟨u, g1, g2, g3⟩ := ih t h2 (fun i j e => Shared.apart_congr (hap i j e) (h3 i) (h3 j)) (by rw [hcap, h5]; exact hl.2)
    refine ⟨u, ?_, ?_, ?_⟩
    · rw [List.map_cons, Shared.run_cons, h1]
      exact g1
    · rw [g2, hcap, h5]
      rfl
    · intro o x hx
      rw [g3 o x, h4 o x hx]
      intro k hin
      unfold InWindow at hin
      rw [(h3 k).1, (h3 k).2.1, (h3 k).2.2] at hin
      exact hx k hin

/-! ## Views -/

namespace Shared

/-- Steps that neither use nor replace a view, and do not replace its parent. -/
def LeavesAlone (v p : Nat) (op : ShareOp) : Prop := ¬Writes op v ∧ ¬Assigns op v ∧ ¬Assigns op p

theorem leaves_run {v p : Nat} (s : Shared) (h : ∀ k, Fits s.heap (s.mgr k)) (ops : List ShareOp) (hp : PermittedRun s ops)
    (hl : ∀ op ∈ ops, LeavesAlone v p op) : ∃ u, s.run ops = .ok u ∧ (∀ k, Fits u.heap (u.mgr k)) ∧ u.mgr v = s.mgr v ∧
      (u.mgr p).obj = (s.mgr p).obj ∧ (u.mgr p).off = (s.mgr p).off ∧ (u.mgr p).cap = (s.mgr p).cap := by
  induction ops generalizing s with
  | nil => exact ⟨s, rfl, h, rfl, rfl, rfl, rfl⟩
  | cons op ops ih =>
    obtain ⟨t, h1, he⟩ := step_effect s h op hp.1
    obtain ⟨l1, l2, l3⟩ := hl op (List.mem_cons_self ..)
    obtain ⟨u, g1, g2, g3, g4, g5, g6⟩ := ih t he.fits (hp.2 t h1) (fun o ho => hl o (List.mem_cons_of_mem _ ho))
    obtain ⟨w1, w2, w3⟩ := he.window p l3
    refine ⟨u, ?_, g2, by rw [g3, he.same v l1 l2], by rw [g4, w1], by rw [g5, w2], by rw [g6, w3]⟩
    rw [run_cons, h1]
    exact g1

/-- What a view shows, by the window of its parent. -/
theorem shows_sub {s : Shared} {v p start stop : Nat} (hv : s.mgr v = (s.mgr p).sub start stop) (h : Fits s.heap (s.mgr p)) :
    shows s v = ((window s p).take stop).drop start := by
  have hs : shows s v = content ((s.mgr v).look s.heap) := rfl
  rw [hs, hv, sub_look]
  exact (C28_view (s.buf p) (bufOk h) start stop).1

theorem sub_congr {a b : Mgr} (ho : a.obj = b.obj) (hf : a.off = b.off) (hc : a.cap = b.cap) (start stop : Nat) :
    a.sub start stop = b.sub start stop := by
  unfold Mgr.sub
  rw [ho, hf, hc]

/-- The parent after its memory was written through a view. -/
theorem parent_put {s : Shared} {v p start stop : Nat} {b : BufferManager} (hv : s.mgr v = (s.mgr p).sub start stop) (hne : v ≠ p)
    (h : Fits s.heap (s.mgr p)) :
    shows (s.put v b) p = ((s.buf p).mem.take (min start (s.mgr p).cap) ++ b.mem).take (s.mgr p).len := by
  have h3 := h.inside
  have hm : (s.put v b).mgr p = s.mgr p := put_other s v p b (fun e => hne e.symm)
  unfold shows
  rw [hm]
  simp only [put, hv, Mgr.sub, if_pos, buf, Mgr.look]
  rw [show (if start > (s.mgr p).cap then (s.mgr p).cap else start) = min start (s.mgr p).cap by split <;> omega]
  rw [List.drop_append_of_le_length (by simp; omega), List.drop_take]
  congr 3
  omega

end Shared

/-- C93. A view is a window into its parent: whatever happens to other buffers, to the parent itself, or to the memory through others, the
view keeps its length and shows the bytes that are now at its place in the parent's window. -/
theorem C93_view_live (s : Shared) (h : ∀ k, Fits s.heap (s.mgr k)) (v p start stop : Nat) (hne : v ≠ p) (ops : List ShareOp)
    (hp : PermittedRun s (.sub v p start stop :: ops)) (hl : ∀ op ∈ ops, Shared.LeavesAlone v p op) :
    ∃ u, s.run (.sub v p start stop :: ops) = .ok u ∧ shows u v = ((window u p).take stop).drop start ∧
      (u.mgr v).len = min stop (s.mgr p).cap - min start (s.mgr p).cap := by
  obtain ⟨t, h1, he⟩ := Shared.step_effect s h (.sub v p start stop) hp.1
  have ht : t = s.setMgr v ((s.mgr p).sub start stop) := by cases h1; rfl
  obtain ⟨u, g1, g2, g3, g4, g5, g6⟩ := Shared.leaves_run t he.fits ops (hp.2 t h1) hl
  have hv : t.mgr v = (s.mgr p).sub start stop := by rw [ht]; simp [Shared.setMgr]
  have hpp : t.mgr p = s.mgr p := by rw [ht]; simp [Shared.setMgr, hne.symm]
  rw [hpp] at g4 g5 g6
  refine ⟨u, ?_, ?_, ?_⟩
  · rw [Shared.run_cons, h1]; exact g1
  · exact Shared.shows_sub (by rw [g3, hv, Shared.sub_congr g4 g5 g6]) (g2 p)
  · rw [g3, hv]
    have := (h p).cap_le
    simp only [Mgr.sub, u8]
    repeat' split
    all_goals omega

/-- C93: after its parent is erased, a view is as long as before and shows zeros. -/
theorem C93_view_erased (s : Shared) (h : ∀ k, Fits s.heap (s.mgr k)) (v p start stop : Nat) (hne : v ≠ p) :
    ∃ u, s.run [.sub v p start stop, .erase p] = .ok u ∧ shows u p = [] ∧
      shows u v = List.replicate (min stop (s.mgr p).cap - min start (s.mgr p).cap) 0#8 := by
  obtain ⟨u, h1, h2, -⟩ := C93_view_live s h v p start stop hne [.erase p] ⟨trivial, fun _ _ => ⟨trivial, fun _ _ => trivial⟩⟩
    (by intro op ho; rw [List.mem_singleton] at ho; subst ho; exact ⟨hne, fun h => h, fun h => h⟩)
  refine ⟨u, h1, ?_⟩
  have hf : ∀ k, Fits (s.setMgr v ((s.mgr p).sub start stop)).heap ((s.setMgr v ((s.mgr p).sub start stop)).mgr k) :=
    (Shared.effect_setMgr (op := .sub v p start stop) h (Shared.sub_fits (h p) start stop) rfl).fits
  have hpp : (s.setMgr v ((s.mgr p).sub start stop)).mgr p = s.mgr p := by simp [Shared.setMgr, hne.symm]
  generalize ht : s.setMgr v ((s.mgr p).sub start stop) = t at hf hpp
  obtain ⟨b, hb, hg, hz⟩ := C25_erase (t.buf p) (hf p).cap_le (Shared.bufOk (hf p)).mem_le
  have hu : u = t.put p b := by
    have : s.run [.sub v p start stop, .erase p] = t.step (.erase p) >>= fun u => .ok u := by rw [← ht]; rfl
    rw [this] at h1
    simp only [Shared.step, hb] at h1
    cases h1; rfl
  have hbp : u.buf p = b := by rw [hu]; exact Shared.put_buf (hf p) hg.cap
  have hcp : (u.mgr p).cap = (s.mgr p).cap := by rw [hu, (Shared.put_mgr t p p b).2.2, hpp]
  have hlen : b.len = 0 := by
    have := congrArg List.length hg.content
    have h5 := hg.ok.len_le
    have h6 := hg.ok.mem_le
    simp [content] at this
    rcases this with h | h
    · exact h
    · rw [h] at h6; simp at h6; omega
  have hw : window u p = List.replicate (s.mgr p).cap 0#8 := by
    have : window u p = (u.buf p).mem.take (u.mgr p).cap := rfl
    rw [this, hbp, hcp]
    have h7 : b.cap = (s.mgr p).cap := by rw [hg.cap]; show (t.mgr p).cap = _; rw [hpp]
    unfold ZeroTail at hz
    rw [hlen, h7] at hz
    simpa using hz
  refine ⟨?_, ?_⟩
  · rw [← Shared.content_buf, hbp, hg.content]
  · rw [h2, hw, List.take_replicate, List.drop_replicate]
    congr 1
    omega

/-! ## Writing through a view -/

namespace Shared

theorem pokeAt_set {m : List Byte} {k : Nat} (h : k < m.length) (c : Byte) : pokeAt m k [c] = .ok (m.set k c) := by
  unfold pokeAt
  rw [if_pos (by simp; omega), List.set_eq_take_append_cons_drop, if_pos h]
  simp

theorem take_drop_set (m : List Byte) (a k : Nat) (c : Byte) (h : a ≤ m.length) : m.take a ++ (m.drop a).set k c = m.set (a + k) c := by
  have e : m.set (a + k) c = (m.take a ++ m.drop a).set (a + k) c := by rw [List.take_append_drop]
  rw [e, List.set_append_right _ _ (by simp; omega)]
  congr 2
  simp; omega

/-- The state after the view was made. -/
structure View (s t : Shared) (v p start stop : Nat) : Prop where
  fits : ∀ k, Fits t.heap (t.mgr k)
  view : t.mgr v = (t.mgr p).sub start stop
  parent : t.mgr p = s.mgr p
  same : t.heap = s.heap

theorem view_made (s : Shared) (h : ∀ k, Fits s.heap (s.mgr k)) (v p start stop : Nat) (hne : v ≠ p) :
    View s (s.setMgr v ((s.mgr p).sub start stop)) v p start stop :=
  ⟨(effect_setMgr (op := .sub v p start stop) h (sub_fits (h p) start stop) rfl).fits,
   by simp [setMgr, hne.symm], by simp [setMgr, hne.symm], rfl⟩

theorem View.mem {s t : Shared} {v p start stop : Nat} (w : View s t v p start stop) (hle : start ≤ (s.mgr p).cap) :
    (t.buf v).mem = (t.buf p).mem.drop start ∧ (t.buf v).cap = (s.mgr p).cap - start ∧ shows t p = shows s p ∧
      start + (t.buf v).cap ≤ (t.buf p).mem.length := by
  have h := w.fits p
  have h2 := h.cap_le
  have h3 := h.inside
  rw [w.parent] at h2 h3
  refine ⟨?_, ?_, ?_, ?_⟩
  · simp only [buf, Mgr.look, w.view, Mgr.sub, w.parent, List.drop_drop]
    rw [if_neg (by omega)]
  · simp only [buf, Mgr.look, w.view, Mgr.sub, w.parent, u8]
    rw [if_neg (by omega)]; omega
  · unfold shows; rw [w.parent, w.same]
  · simp only [buf, Mgr.look, w.view, Mgr.sub, w.parent, u8, List.length_drop]
    rw [if_neg (by omega)]; omega

theorem View.len {s t : Shared} {v p start stop : Nat} (w : View s t v p start stop) (h1 : start ≤ stop) (h2 : stop ≤ (s.mgr p).cap) :
    (t.buf v).len = stop - start := by
  have h := (w.fits p).cap_le
  rw [w.parent] at h
  simp only [buf, Mgr.look, w.view, Mgr.sub, w.parent, u8]
  repeat' split
  all_goals omega

theorem View.put {s t : Shared} {v p start stop : Nat} (w : View s t v p start stop) (hne : v ≠ p) (hle : start ≤ (s.mgr p).cap)
    (b : BufferManager) : shows (t.put v b) p = ((t.buf p).mem.take start ++ b.mem).take (s.mgr p).len := by
  rw [parent_put w.view hne (w.fits p), w.parent, Nat.min_eq_left hle]

end Shared

/-- C93: a byte written through a view is written in the parent. -/
theorem C93_view_write (s : Shared) (h : ∀ k, Fits s.heap (s.mgr k)) (v p start stop k : Nat) (c : Byte) (hne : v ≠ p)
    (hk : start + k < stop) (hs : stop ≤ (s.mgr p).cap) :
    ∃ u, s.run [.sub v p start stop, .write v k c] = .ok u ∧ shows u p = (shows s p).set (start + k) c := by
  have w := Shared.view_made s h v p start stop hne
  have hrun : s.run [.sub v p start stop, .write v k c] = (s.setMgr v ((s.mgr p).sub start stop)).step (.write v k c) >>= fun u => .ok u := rfl
  rw [hrun]
  generalize s.setMgr v ((s.mgr p).sub start stop) = t at w ⊢
  obtain ⟨e1, e2, e3, e4⟩ := w.mem (by omega)
  have e5 := w.len (by omega) hs
  have hb : (t.buf v).setAt k c = .ok { t.buf v with mem := (t.buf v).mem.set k c } := by
    unfold BufferManager.setAt BufferManager.limitIndex
    rw [if_neg (by omega), Shared.pokeAt_set (by rw [e1]; simp; omega)]
    rfl
  refine ⟨_, by simp only [Shared.step, hb]; rfl, ?_⟩
  rw [w.put hne (by omega)]
  show ((t.buf p).mem.take start ++ (t.buf v).mem.set k c).take _ = _
  rw [e1, Shared.take_drop_set _ _ _ _ (by omega), ← e3, List.take_set]
  unfold shows
  rw [w.parent]
  congr 2
  simp only [Shared.buf, Mgr.look, w.parent]

/-- C93: a character appended to a view is stored behind it in the parent: it replaces a byte of the parent that was not part of the view. -/
theorem C93_view_push (s : Shared) (h : ∀ k, Fits s.heap (s.mgr k)) (v p start stop : Nat) (c : Byte) (hne : v ≠ p)
    (h1 : start ≤ stop) (hs : stop < (s.mgr p).cap) :
    ∃ u, s.run [.sub v p start stop, .pushChar v c] = .ok u ∧ shows u p = (shows s p).set stop c := by
  have w := Shared.view_made s h v p start stop hne
  have hrun : s.run [.sub v p start stop, .pushChar v c] = (s.setMgr v ((s.mgr p).sub start stop)).step (.pushChar v c) >>= fun u => .ok u := rfl
  rw [hrun]
  generalize s.setMgr v ((s.mgr p).sub start stop) = t at w ⊢
  obtain ⟨e1, e2, e3, e4⟩ := w.mem (by omega)
  have e5 := w.len h1 (by omega)
  have hb : (t.buf v).push_back_char c =
      .ok ({ t.buf v with mem := (t.buf v).mem.set (stop - start) c, len := u8 ((t.buf v).len + 1) }, 1) := by
    unfold BufferManager.push_back_char
    rw [if_pos (by omega), Shared.pokeAt_set (by rw [e1]; simp; omega), e5]
    rfl
  refine ⟨_, by simp only [Shared.step, hb]; rfl, ?_⟩
  rw [w.put hne (by omega)]
  show ((t.buf p).mem.take start ++ (t.buf v).mem.set (stop - start) c).take _ = _
  rw [e1, Shared.take_drop_set _ _ _ _ (by omega), ← e3, List.take_set, show start + (stop - start) = stop by omega]
  unfold shows
  rw [w.parent]
  congr 2
  simp only [Shared.buf, Mgr.look, w.parent]

/-- C93: erasing a view erases the parent from the start of the view to the end of its memory, not only the bytes the view showed. The
parent keeps its length. -/
theorem C93_view_erase (s : Shared) (h : ∀ k, Fits s.heap (s.mgr k)) (v p start stop : Nat) (hne : v ≠ p)
    (hs : start ≤ (s.mgr p).len) :
    ∃ u, s.run [.sub v p start stop, .erase v] = .ok u ∧
      shows u p = (shows s p).take start ++ List.replicate ((s.mgr p).len - start) 0#8 := by
  have w := Shared.view_made s h v p start stop hne
  have hrun : s.run [.sub v p start stop, .erase v] = (s.setMgr v ((s.mgr p).sub start stop)).step (.erase v) >>= fun u => .ok u := rfl
  rw [hrun]
  generalize s.setMgr v ((s.mgr p).sub start stop) = t at w ⊢
  have hl := (h p).len_le
  obtain ⟨e1, e2, e3, e4⟩ := w.mem (by omega)
  have hb : (t.buf v).erase = .ok { t.buf v with mem := List.replicate (t.buf v).cap 0#8 ++ (t.buf v).mem.drop (t.buf v).cap, len := 0 } := by
    unfold BufferManager.erase pokeAt
    rw [if_pos (by rw [e1]; simp; omega)]
    simp [bind, Except.bind]
  refine ⟨_, by simp only [Shared.step, hb]; rfl, ?_⟩
  rw [w.put hne (by omega)]
  show ((t.buf p).mem.take start ++ (List.replicate (t.buf v).cap 0#8 ++ (t.buf v).mem.drop (t.buf v).cap)).take _ = _
  have hp : (shows s p).take start = (t.buf p).mem.take start := by
    rw [← e3]; unfold shows
    rw [List.take_take, w.parent, Nat.min_eq_left hs]
    simp only [Shared.buf, Mgr.look, w.parent]
  rw [hp, List.take_append, List.length_take, Nat.min_eq_left (by omega), List.take_take, Nat.min_eq_right (by omega),
    List.take_append_of_le_length (by simp; omega), List.take_replicate, Nat.min_eq_left (by omega)]

/-- C93: setting a buffer to its own bytes overlaps: `strncpy` writes where it reads. -/
theorem C93_set_own (s : Shared) (h : ∀ k, Fits s.heap (s.mgr k)) (i : Nat) (hc : 2 ≤ (s.mgr i).cap) :
    s.run [.setFrom i i] = .error .overlap := by
  obtain ⟨b, hb, hg, hz⟩ := C25_erase (s.buf i) (h i).cap_le (Shared.bufOk (h i)).mem_le
  have hcap : b.cap = (s.mgr i).cap := hg.cap
  have hbuf := Shared.put_buf (h i) hcap
  have hm : ∃ m', b.mem = 0#8 :: m' := by
    have h5 := hg.ok.len_le
    have h6 := hg.ok.mem_le
    have h7 := congrArg List.length hg.content
    simp [content] at h7
    have h8 : b.len = 0 := by rcases h7 with h | h; exact h; rw [h] at h6; simp at h6; omega
    unfold ZeroTail at hz
    rw [h8] at hz
    cases hmem : b.mem with
    | nil => rw [hmem] at h6; simp at h6; omega
    | cons x m' =>
      refine ⟨m', ?_⟩
      rw [hmem] at hz
      obtain ⟨n, hn⟩ : ∃ n, b.cap = n + 1 := ⟨b.cap - 1, by omega⟩
      rw [hn] at hz
      simp [List.replicate_succ] at hz
      rw [hz.1]
  obtain ⟨m', hm⟩ := hm
  have hst : ∃ l, strncpyBytes (b.cap - 1) b.mem = .ok l := by
    obtain ⟨n, hn⟩ : ∃ n, b.cap - 1 = n + 1 := ⟨b.cap - 2, by omega⟩
    rw [hn, hm]
    exact ⟨_, by simp [strncpyBytes]; rfl⟩
  obtain ⟨l, hl⟩ := hst
  have hov : overlapping (s.mgr i).obj (s.mgr i).off (b.cap - 1) (s.mgr i).obj (s.mgr i).off
      (min (b.cap - 1) ((b.mem.takeWhile (· ≠ 0#8)).length + 1)) = true := by
    have hmin : 0 < min (b.cap - 1) ((b.mem.takeWhile (· ≠ 0#8)).length + 1) := by omega
    generalize min (b.cap - 1) ((b.mem.takeWhile (· ≠ 0#8)).length + 1) = n at hmin
    simp [overlapping]
    omega
  show (s.setFromAt i i >>= fun u => .ok u) = _
  unfold Shared.setFromAt
  simp only [hb, SRes.of, bind, Except.bind]
  rw [if_neg (by omega)]
  simp only [hbuf, hl]
  obtain ⟨e1, e2, e3⟩ := Shared.put_mgr s i i b
  rw [e1, e2, hov]
  rfl

/-- C93: setting a buffer to the string another one holds: afterwards it shows it up to the terminator, cut to what fits. -/
theorem C93_set_from (s : Shared) (h : ∀ k, Fits s.heap (s.mgr k)) (i j k : Nat) (hc : 1 ≤ (s.mgr i).cap) (ha : Apart (s.mgr i) (s.mgr j))
    (hk : (window s j)[k]? = some 0#8) :
    ∃ u, s.run [.setFrom i j] = .ok u ∧ shows u i = ((window s j).takeWhile (· ≠ 0#8)).take ((s.mgr i).cap - 1) ∧ window u j = window s j := by
  obtain ⟨b, h1, hg, hl⟩ := Shared.setFromAt_ok h hc ha hk
  refine ⟨s.put i b, ?_, ?_, ?_⟩
  · show (s.setFromAt i j >>= fun u => .ok u) = _
    rw [h1]; rfl
  · rw [← Shared.content_buf, Shared.put_buf (h i) hg.cap, hg.content]
  · obtain ⟨e1, e2, e3⟩ := Shared.put_mgr s i j b
    unfold window
    rw [e1, e2, e3]
    apply List.ext_getElem?
    intro x
    rw [List.getElem?_take, List.getElem?_take, List.getElem?_drop, List.getElem?_drop]
    split
    · next hx =>
      exact (Shared.put_bytes (h i) hl _).2 _ (fun hin => ha _ _ hin ⟨rfl, by omega, by omega⟩)
    · rfl

/-! ## Cases -/

/-- Two arrays of 8 bytes. Buffer 0 shows `ABCD` of the first, buffer 1 is empty and has the second. -/
def caseShared : Shared where
  heap := fun o => if o = 0 then [65#8, 66#8, 67#8, 68#8, 0#8, 0#8, 0#8, 0#8] else List.replicate 8 0#8
  mgr := fun k => if k = 0 then { obj := 0, off := 0, len := 4, cap := 8 } else { obj := k, off := 0, len := 0, cap := 8 }

theorem caseShared_fits (k : Nat) : Fits caseShared.heap (caseShared.mgr k) := by
  by_cases h : k = 0
  · subst h; exact ⟨by decide, by decide, by decide⟩
  · refine ⟨?_, ?_, ?_⟩ <;> simp [caseShared, h]

theorem caseShared_apart (i j : Nat) (h : i ≠ j) : Apart (caseShared.mgr i) (caseShared.mgr j) := by
  intro o x hi hj
  have e : ∀ k, (caseShared.mgr k).obj = k := by intro k; by_cases hk : k = 0 <;> simp [caseShared, hk]
  exact h (by rw [← e i, ← e j, ← hi.1, ← hj.1])

/-- What a buffer shows after a program. -/
def shownAfter (ops : List ShareOp) (k : Nat) : Option (List Byte) := (caseShared.run ops).toOption.map (fun u => shows u k)

/-- C93_apart: appending a buffer to itself doubles it. -/
example : LegalApartRun (fun k => (caseShared.mgr k).cap) (shows caseShared) [.append 0 0 0 4] ∧
    shownAfter [.appendView 0 0 0 4] 0 = some [65#8, 66#8, 67#8, 68#8, 65#8, 66#8, 67#8, 68#8] := by
  refine ⟨⟨⟨by decide, by decide⟩, trivial⟩, by decide⟩

/-- C93_apart: moving a buffer into itself when there is room for two more bytes. -/
example : shownAfter [.pushChar 0 69#8, .pushChar 0 70#8, .move 0 0] 0 = some [67#8, 68#8, 69#8, 70#8, 65#8, 66#8] := by decide

/-- C93_overlap: a view that reaches behind the content of its parent, appended to it. -/
example : Clash (caseShared.mgr 0) ((caseShared.mgr 0).sub 2 6) ∧ shownAfter [.sub 2 0 2 6, .append 0 2] 0 = none := by
  refine ⟨⟨rfl, 5, ?_⟩, by decide⟩
  decide

/-- C93_no_overlap, C93_safe, C93_frame: a view inside the content appended to its parent. Buffer 1 sees nothing of it. -/
example : PermittedRun caseShared [.sub 2 0 1 3, .append 0 2] ∧ shownAfter [.sub 2 0 1 3, .append 0 2] 0 = some [65#8, 66#8, 67#8, 68#8, 66#8, 67#8] ∧
    shownAfter [.sub 2 0 1 3, .append 0 2] 1 = some [] := by
  refine ⟨⟨trivial, fun t ht => ⟨?_, fun _ _ => trivial⟩⟩, by decide, by decide⟩
  have e : t = caseShared.setMgr 2 ((caseShared.mgr 0).sub 1 3) := by cases ht; rfl
  rw [e]
  exact (C93_no_overlap caseShared.heap (caseShared.mgr 0) (caseShared.mgr 1) (caseShared_fits 0) (caseShared_fits 1) 1 3).2.2 (by decide)

/-- C93_view_live: the view `BC` after the first byte of the parent was popped and `Z` appended. It shows `CD`. -/
example : PermittedRun caseShared [.sub 2 0 1 3, .pop 0 1, .pushChar 0 90#8] ∧
    (∀ op ∈ [ShareOp.pop 0 1, .pushChar 0 90#8], Shared.LeavesAlone 2 0 op) ∧
    shownAfter [.sub 2 0 1 3] 2 = some [66#8, 67#8] ∧
    shownAfter [.sub 2 0 1 3, .pop 0 1, .pushChar 0 90#8] 2 = some [67#8, 68#8] := by
  refine ⟨⟨trivial, fun _ _ => ⟨trivial, fun _ _ => ⟨trivial, fun _ _ => trivial⟩⟩⟩, ?_, by decide, by decide⟩
  intro op ho
  simp only [List.mem_cons, List.not_mem_nil, or_false] at ho
  rcases ho with rfl | rfl <;> exact ⟨by simp [Writes], by simp [Assigns], by simp [Assigns]⟩

/-- C93_view_erased, C93_view_write, C93_view_push and C93_view_erase with the view `BC`. -/
example : shownAfter [.sub 2 0 1 3, .erase 0] 2 = some [0#8, 0#8] ∧
    shownAfter [.sub 2 0 1 3, .write 2 1 90#8] 0 = some [65#8, 66#8, 90#8, 68#8] ∧
    shownAfter [.sub 2 0 1 3, .pushChar 2 90#8] 0 = some [65#8, 66#8, 67#8, 90#8] ∧
    shownAfter [.sub 2 0 1 3, .erase 2] 0 = some [65#8, 0#8, 0#8, 0#8] := by decide

/-- C93_set_own, and a string of another buffer. -/
example : shownAfter [.setFrom 0 0] 0 = none ∧ shownAfter [.setFrom 1 0] 1 = some [65#8, 66#8, 67#8, 68#8] := by decide

end RR32
