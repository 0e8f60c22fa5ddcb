import Verif.Proofs.CLib
import Verif.Spec.Buffer

/-! # Buffer operations in normal form: `c ++ t` is memory with content `c` -/

set_option autoImplicit false

namespace RR32

open Spec

theorem peek_eq (m : List Byte) (i : Nat) (h : i < m.length) : peek m i = .ok m[i] := by
  simp [peek, h]

theorem pokeAt_eq (a x b l : List Byte) (h : x.length = l.length) : pokeAt (a ++ (x ++ b)) a.length l = .ok (a ++ (l ++ b)) := by
  unfold pokeAt
  rw [if_pos (by simp; omega)]
  congr 1
  rw [List.take_left, List.drop_append, List.drop_eq_nil_of_le (by omega), List.nil_append, List.append_assoc]
  congr 2
  rw [show a.length + l.length - a.length = x.length by omega, List.drop_left]

theorem pokeAt_zero (x b l : List Byte) (h : x.length = l.length) : pokeAt (x ++ b) 0 l = .ok (l ++ b) :=
  pokeAt_eq [] x b l h

theorem peekAt_eq (a x b : List Byte) : peekAt (a ++ (x ++ b)) a.length x.length = .ok x := by
  unfold peekAt
  rw [if_pos (by simp), List.drop_left, List.take_left]

namespace BufferManager

/-- Normal form. -/
theorem normal (b : BufferManager) (h : b.len ≤ b.mem.length) :
    b = { mem := content b ++ b.mem.drop b.len, len := (content b).length, cap := b.cap } := by
  cases b
  simp only [content, List.take_append_drop, List.length_take] at *
  congr 1
  omega

theorem erase_eq (x t : List Byte) (n cap : Nat) (h : x.length = cap) :
    (erase { mem := x ++ t, len := n, cap := cap }) =
      .ok { mem := List.replicate cap 0#8 ++ t, len := 0, cap := cap } := by
  simp only [erase, bind, Except.bind]
  rw [pokeAt_zero x t _ (by simp [h])]

theorem push_back_eq (c t d u : List Byte) (cap cap2 : Nat) (h1 : c.length ≤ cap) (h2 : cap ≤ 255) (h3 : cap ≤ (c ++ t).length) :
    push_back { mem := c ++ t, len := c.length, cap := cap } { mem := d ++ u, len := d.length, cap := cap2 } =
      .ok ({ mem := (c ++ d.take (cap - c.length)) ++ t.drop (min (cap - c.length) d.length),
             len := (c ++ d.take (cap - c.length)).length, cap := cap }, min (cap - c.length) d.length) := by
  have hr : capacity_remaining { mem := c ++ t, len := c.length, cap := cap } = cap - c.length := by
    simp only [capacity_remaining, u8]; omega
  simp only [push_back, hr, bind, Except.bind]
  have hk : (if cap - c.length < d.length then cap - c.length else d.length) = min (cap - c.length) d.length := by
    split <;> omega
  rw [hk]
  have ht : (d.take (cap - c.length)).length = min (cap - c.length) d.length := List.length_take
  have e1 : peekAt (d ++ u) 0 (min (cap - c.length) d.length) = .ok (d.take (cap - c.length)) := by
    have := peekAt_eq [] (d.take (cap - c.length)) (d.drop (cap - c.length) ++ u)
    rw [List.nil_append, ← List.append_assoc, List.take_append_drop, ht] at this
    exact this
  rw [e1]
  simp only []
  have e2 : pokeAt (c ++ t) c.length (d.take (cap - c.length)) =
      .ok (c ++ (d.take (cap - c.length) ++ t.drop (min (cap - c.length) d.length))) := by
    have h4 : cap ≤ c.length + t.length := by simpa using h3
    have := pokeAt_eq c (t.take (min (cap - c.length) d.length)) (t.drop (min (cap - c.length) d.length))
      (d.take (cap - c.length)) (by simp; omega)
    rw [List.take_append_drop] at this
    exact this
  rw [e2]
  simp only [u8, List.append_assoc, List.length_append, ht]
  congr 3
  omega

theorem push_back_char_eq (c t : List Byte) (x : Byte) (cap : Nat) (h2 : cap ≤ 255) (h3 : cap ≤ (c ++ t).length) :
    push_back_char { mem := c ++ t, len := c.length, cap := cap } x =
      if c.length < cap then .ok ({ mem := (c ++ [x]) ++ t.drop 1, len := (c ++ [x]).length, cap := cap }, 1)
      else .ok ({ mem := c ++ t, len := c.length, cap := cap }, 0) := by
  simp only [push_back_char, bind, Except.bind]
  split
  · next h =>
    have h4 : cap ≤ c.length + t.length := by simpa using h3
    have := pokeAt_eq c (t.take 1) (t.drop 1) [x] (by simp; omega)
    rw [List.take_append_drop] at this
    rw [this]
    simp only [u8, List.append_assoc, List.length_append, List.length_singleton]
    congr 3
    omega
  · rfl

theorem pop_front_eq (c t : List Byte) (n cap : Nat) (h1 : c.length ≤ cap) (h2 : cap ≤ 255) (h3 : cap ≤ (c ++ t).length) :
    pop_front { mem := c ++ t, len := c.length, cap := cap } n =
      .ok { mem := c.drop n ++ (List.replicate (cap - (c.drop n).length) 0#8 ++ (c ++ t).drop cap), len := (c.drop n).length,
            cap := cap } := by
  simp only [pop_front]
  split
  · next h =>
    have e : (c ++ t) = (c ++ t).take cap ++ (c ++ t).drop cap := (List.take_append_drop _ _).symm
    conv => lhs; rw [e]
    rw [erase_eq _ _ _ _ (by rw [List.length_take]; omega), List.drop_eq_nil_of_le (by omega : c.length ≤ n)]
    simp
  · next h =>
    simp only [bind, Except.bind]
    have e : c ++ t = c.take n ++ (c.drop n ++ t) := by rw [← List.append_assoc, List.take_append_drop]
    have hn : (c.take n).length = n := by rw [List.length_take]; omega
    have hd : (c.drop n).length = c.length - n := List.length_drop
    have e1 : peekAt (c ++ t) n (c.length - n) = .ok (c.drop n) := by
      have := peekAt_eq (c.take n) (c.drop n) t
      rw [← e, hn, hd] at this
      exact this
    rw [e1]
    simp only []
    have e2 : pokeAt (c ++ t) 0 (c.drop n) = .ok (c.drop n ++ (c ++ t).drop (c.length - n)) := by
      have := pokeAt_zero ((c ++ t).take (c.length - n)) ((c ++ t).drop (c.length - n)) (c.drop n) (by
        rw [List.length_take, List.length_append]; omega)
      rw [List.take_append_drop] at this
      exact this
    rw [e2]
    have hr : capacity_remaining { mem := c ++ t, len := c.length - n, cap := cap } = cap - (c.drop n).length := by
      simp only [capacity_remaining, u8, hd]; omega
    simp only [hr, hd]
    have e3 : pokeAt (c.drop n ++ (c ++ t).drop (c.length - n)) (c.length - n) (List.replicate (cap - (c.length - n)) 0#8) =
        .ok (c.drop n ++ (List.replicate (cap - (c.length - n)) 0#8 ++ (c ++ t).drop cap)) := by
      have := pokeAt_eq (c.drop n) (((c ++ t).drop (c.length - n)).take (cap - (c.length - n)))
        (((c ++ t).drop (c.length - n)).drop (cap - (c.length - n))) (List.replicate (cap - (c.length - n)) 0#8) (by
          simp only [List.length_take, List.length_drop, List.length_replicate]; omega)
      rw [List.take_append_drop, hd, List.drop_drop, show c.length - n + (cap - (c.length - n)) = cap by omega] at this
      exact this
    rw [e3]

theorem set_eq (x t text rest : List Byte) (n cap : Nat) (hx : x.length = cap) (hc : 1 ≤ cap) (h2 : cap ≤ 255) (hn : NoNul text) :
    set { mem := x ++ t, len := n, cap := cap } (text ++ 0#8 :: rest) =
      .ok { mem := text.take (cap - 1) ++ (List.replicate (cap - (text.take (cap - 1)).length) 0#8 ++ t),
            len := (text.take (cap - 1)).length, cap := cap } := by
  simp only [set, erase_eq x t n cap hx, bind, Except.bind]
  rw [if_neg (by omega), strncpy_eq _ _ text rest hn (by simp; omega)]
  simp only []
  have e : List.take (cap - 1) text ++ List.replicate (cap - 1 - text.length) 0#8 ++ List.drop (cap - 1) (List.replicate cap 0#8 ++ t)
      = text.take (cap - 1) ++ 0#8 :: (List.replicate (cap - (text.take (cap - 1)).length - 1) 0#8 ++ t) := by
    rw [List.drop_append_of_le_length (by simp), List.drop_replicate, show cap - (cap - 1) = 1 by omega, List.append_assoc]
    congr 1
    rw [← List.append_assoc, ← List.cons_append, ← List.replicate_succ, List.replicate_append_replicate]
    congr 2
    simp only [List.length_take]
    omega
  rw [e, strlen_eq _ _ (hn.take _)]
  have hl : (text.take (cap - 1)).length < cap := by rw [List.length_take]; omega
  simp only [u8]
  congr 2
  · congr 1
    rw [← List.cons_append, ← List.replicate_succ]
    congr 2
    omega
  · omega

theorem get_eq (c t : List Byte) (k cap : Nat) (h1 : c.length ≤ cap) (h2 : cap ≤ 255) (hne : c ≠ []) :
    get { mem := c ++ t, len := c.length, cap := cap } k =
      .ok (c[min k (c.length - 1)]'(by have := List.length_pos_iff.mpr hne; omega)) := by
  have hp := List.length_pos_iff.mpr hne
  have e : limitIndex { mem := c ++ t, len := c.length, cap := cap } k = min k (c.length - 1) := by
    simp only [limitIndex, u8]; split <;> omega
  simp only [get, e]
  rw [peek_eq _ _ (by rw [List.length_append]; omega), List.getElem_append_left]

theorem setAt_eq (c t : List Byte) (k cap : Nat) (x : Byte) (h1 : c.length ≤ cap) (h2 : cap ≤ 255) (hne : c ≠ []) :
    setAt { mem := c ++ t, len := c.length, cap := cap } k x =
      .ok { mem := c.set (min k (c.length - 1)) x ++ t, len := (c.set (min k (c.length - 1)) x).length, cap := cap } := by
  have hp := List.length_pos_iff.mpr hne
  have e : limitIndex { mem := c ++ t, len := c.length, cap := cap } k = min k (c.length - 1) := by
    simp only [limitIndex, u8]; split <;> omega
  simp only [setAt, e, bind, Except.bind]
  generalize hi : min k (c.length - 1) = i
  have hlt : i < c.length := by omega
  have hs : c.set i x = c.take i ++ x :: c.drop (i + 1) := List.set_eq_take_append_cons_drop .. |>.trans (by rw [if_pos hlt])
  have hc : c ++ t = c.take i ++ ([c[i]] ++ (c.drop (i + 1) ++ t)) := by
    rw [List.singleton_append, ← List.cons_append, ← List.drop_eq_getElem_cons hlt, ← List.append_assoc, List.take_append_drop]
  have := pokeAt_eq (c.take i) [c[i]] (c.drop (i + 1) ++ t) [x] rfl
  rw [← hc, List.length_take, show min i c.length = i by omega] at this
  rw [this, hs]
  simp only [List.append_assoc, List.cons_append, List.nil_append, List.length_append, List.length_take, List.length_cons,
    List.length_drop]
  congr 2
  omega

end BufferManager

/-- The search loop: it stays in bounds and finds the least index, or none. -/
theorem findLoop_spec (m : List Byte) (p : Byte → Bool) (n i : Nat) (h : i + n ≤ m.length) (h255 : i + n ≤ 255) :
    ∃ r, BufferManager.findLoop m p n i = .ok r ∧
      ((r = BufferManager.npos ∧ ∀ k, i ≤ k → (hk : k < i + n) → p (m[k]'(by omega)) = false) ∨
       (∃ hr : r < i + n, i ≤ r ∧ p (m[r]'(by omega)) = true ∧ ∀ k, i ≤ k → (hk : k < r) → p (m[k]'(by omega)) = false)) := by
  induction n generalizing i with
  | zero => exact ⟨_, rfl, Or.inl ⟨rfl, by intro k h1 h2; omega⟩⟩
  | succ n ih =>
    simp only [BufferManager.findLoop, peek_eq m i (by omega), bind, Except.bind]
    by_cases hp : p (m[i]'(by omega)) = true
    · rw [if_pos hp]
      exact ⟨i, rfl, Or.inr ⟨by omega, Nat.le_refl _, hp, by intro k h1 h2; omega⟩⟩
    · rw [if_neg hp]
      obtain ⟨r, hr, hc⟩ := ih (i + 1) (by omega) (by omega)
      refine ⟨r, hr, ?_⟩
      have h0 : p (m[i]'(by omega)) = false := by simpa using hp
      rcases hc with ⟨h1, h2⟩ | ⟨h1, h2, h3, h4⟩
      · left
        refine ⟨h1, ?_⟩
        intro k hk1 hk2
        by_cases e : k = i
        · subst e; exact h0
        · exact h2 k (by omega) (by omega)
      · right
        refine ⟨by omega, by omega, h3, ?_⟩
        intro k hk1 hk2
        by_cases e : k = i
        · subst e; exact h0
        · exact h4 k (by omega) hk2

end RR32
