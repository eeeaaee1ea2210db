import Verif.Lemmas.Pool
import Verif.Spec.PoolKept
/-!
# No buffer is lost

Between two runs of the exception handler every object that has been constructed stays in one of the places of the client.
-/

set_option autoImplicit false
set_option linter.unusedSimpArgs false

namespace Verif

open Spec

theorem erase_length {x : Nat} : ∀ {l : List Nat}, x ∈ l → (l.erase x).length + 1 = l.length
  | [], h => by cases h
  | y :: l, h => by
    by_cases e : y = x
    · subst e; simp
    · have : x ∈ l := by cases h with
        | head => exact absurd rfl e
        | tail _ h => exact h
      rw [List.erase_cons_tail (by simpa using e), List.length_cons, List.length_cons, erase_length this]

/-- As many places as objects. -/
theorem allIn_length : ∀ (n a : Nat) (l : List Nat), AllIn a (a + n) l → n ≤ l.length
  | 0, _, _, _ => Nat.zero_le _
  | n + 1, a, l, h => by
    have ha : a ∈ l := h a (Nat.le_refl _) (by omega)
    have := allIn_length n (a + 1) (l.erase a) fun i h1 h2 => by
      rw [List.mem_erase_of_ne (by omega)]
      exact h i (by omega) (by omega)
    have := erase_length ha
    omega

namespace UdpP

/-- All the places of the client that hold objects, apart from the pool. -/
def used (p : UdpP) : List Nat :=
  p.cur.toList ++ p.disp.toList ++ p.dispQ ++ p.replyQ ++ p.held.toList ++ (if past p.mid then [] else p.reply.toList)

def all (p : UdpP) : List Nat := p.pool ++ p.used

/-- A step that loses nothing. -/
def Keeps (p q : UdpP) : Prop := p.made ≤ q.made ∧ (∀ i ∈ p.all, i ∈ q.all) ∧ ∀ i, p.made ≤ i → i < q.made → i ∈ q.all

theorem Keeps.refl (p : UdpP) : Keeps p p := ⟨Nat.le_refl _, fun _ h => h, fun i h1 h2 => by omega⟩

theorem keeps_of {p q : UdpP} (hm : q.made = p.made) (h : ∀ i ∈ p.all, i ∈ q.all) : Keeps p q := ⟨by omega, h, fun i h1 h2 => by omega⟩

theorem Keeps.trans {p q r : UdpP} (h1 : Keeps p q) (h2 : Keeps q r) : Keeps p r :=
  ⟨Nat.le_trans h1.1 h2.1, fun i h => h2.2.1 i (h1.2.1 i h), fun i a b => by
    by_cases e : i < q.made
    · exact h2.2.1 i (h1.2.2 i a e)
    · exact h2.2.2 i (by omega) b⟩

theorem keeps_stock (p : UdpP) : Keeps p p.stock := by
  unfold stock
  split
  · rename_i e
    refine ⟨by simp, fun i hi => ?_, fun i h1 h2 => ?_⟩
    · simp only [all, used, e, List.nil_append] at hi ⊢
      exact List.mem_append_right _ hi
    · simp only [all]
      exact List.mem_append_left _ (List.mem_range'_1.2 ⟨h1, h2⟩)
  · exact .refl p

theorem keeps_take (p : UdpP) : Keeps p p.take := by
  unfold take
  split
  · exact .refl p
  · rename_i e
    have ec : p.stock.cur = none := by rw [← e]; unfold stock; split <;> rfl
    split
    · exact keeps_stock p
    · rename_i i is e2
      refine (keeps_stock p).trans (keeps_of rfl fun j hj => ?_)
      simp only [all, used, e2, ec, put, Option.toList, List.mem_append, List.mem_cons] at hj ⊢
      grind

theorem keeps_fill (p : UdpP) (f : Buf → Buf) : Keeps p (p.fill f) := by
  unfold fill
  split
  · exact .refl p
  · exact keeps_of rfl fun j hj => hj

theorem keeps_giveBack (p : UdpP) : Keeps p p.giveBack := by
  unfold giveBack
  split
  · exact .refl p
  · rename_i i e
    refine keeps_of rfl fun j hj => ?_
    simp only [all, used, e, Option.toList, List.mem_append, List.mem_cons] at hj ⊢
    grind

theorem next_all (maxN : Nat) (p : UdpP) (i : Nat) (h : i ∈ { p with disp := none }.all) : i ∈ (p.next maxN).all := by
  unfold next
  split
  · rename_i b q e
    split
    · simp only [all, used, write, e, Option.toList, List.mem_append, List.mem_cons] at h ⊢
      grind
    · exact h
  · exact h

theorem keeps_dispatch (p : UdpP) (maxN : Nat) : Keeps p (p.dispatch maxN) := by
  unfold dispatch
  split
  · exact .refl p
  · exact .refl p
  · rename_i i e1 e2
    simp only
    split
    · refine keeps_of rfl fun j hj => ?_
      simp only [all, used, e1, e2, Option.toList, List.mem_append, List.mem_cons] at hj ⊢
      grind
    · rename_i hd
      have hd : p.disp = none := by
        cases hp : p.disp <;> simp [hp] at hd ⊢
      refine keeps_of rfl fun j hj => ?_
      simp only [all, used, write, e1, e2, hd, Option.toList, List.mem_append, List.mem_cons] at hj ⊢
      grind

theorem keeps_sendDone (p : UdpP) (hm : p.mid = none) (maxN : Nat) (ok : Bool) : Keeps p (p.sendDone maxN ok) := by
  unfold sendDone
  split
  · exact .refl p
  · simp only
    split
    · exact keeps_of rfl fun j hj => hj
    · split
      · exact keeps_of rfl fun j hj => hj
      · split
        · exact keeps_of rfl fun j hj => hj
        · rename_i i ed
          split
          · exact keeps_of rfl fun j hj => hj
          · split
            · refine keeps_of (next_made _ _) fun j hj => next_all _ _ _ ?_
              simp only [all, used, ed, Option.toList, List.mem_append, List.mem_cons] at hj ⊢
              grind
            · rename_i er
              refine keeps_of (by rw [next_made]; rfl) fun j hj => next_all _ _ _ ?_
              simp only [all, used, ed, er, read, hm, past, Option.toList, List.mem_append, List.mem_cons] at hj ⊢
              grind

theorem keeps_recvBegin (p : UdpP) (hm : p.mid = none) (hh : p.held = none) (c : Cfg) (r : Option (List W)) : Keeps p (p.recvBegin c r) := by
  unfold recvBegin
  split
  · exact .refl p
  · simp only
    split
    · exact keeps_of rfl fun j hj => hj
    · split
      · exact keeps_of rfl fun j hj => hj
      · split
        · exact keeps_of rfl fun j hj => hj
        · rename_i i er
          split
          · refine keeps_of rfl fun j hj => ?_
            simp only [all, used, close, er, hm, past, Option.toList, List.mem_append, List.mem_cons] at hj ⊢
            grind
          · split
            · refine keeps_of rfl fun j hj => ?_
              simp only [all, used, er, hh, hm, past, Option.toList, List.mem_append, List.mem_cons] at hj ⊢
              grind
            · refine keeps_of rfl fun j hj => ?_
              simp only [all, used, er, hh, hm, past, Option.toList, List.mem_append, List.mem_cons] at hj ⊢
              grind
            · exact keeps_of rfl fun j hj => hj

theorem keeps_resume (p : UdpP) (maxN : Nat) : Keeps p (p.resume maxN) := by
  have key : ∀ q : UdpP, Keeps p q → Keeps p (if q.disp.isNone && q.reply.isNone then { q with deadline := .armed, flushDone := true } else q) := by
    intro q h
    split
    · exact h
    · exact h
  unfold resume
  apply key
  split
  · rename_i hd
    have hd : p.disp = none := by cases hp : p.disp <;> simp [hp] at hd ⊢
    refine keeps_of (next_made _ _) fun j hj => next_all _ _ _ ?_
    simpa only [all, used, hd] using hj
  · exact .refl p

theorem keeps_shift (p : UdpP) : Keeps { p with mid := some .last } { p with mid := none }.shift := by
  unfold shift
  split
  · rename_i i q e
    refine keeps_of rfl fun j hj => ?_
    simp only at e
    simp only [all, used, e, read, past, Option.toList, List.mem_append, List.mem_cons] at hj ⊢
    grind
  · rename_i e
    refine keeps_of rfl fun j hj => ?_
    simp only at e
    simp only [all, used, e, past, Option.toList, List.mem_append, List.mem_cons] at hj ⊢
    grind

theorem keeps_recvEnd (p : UdpP) (maxN : Nat) : Keeps p (p.recvEnd maxN) := by
  unfold recvEnd
  split
  · exact .refl p
  · rename_i hm
    refine keeps_of rfl fun j hj => ?_
    simp only [all, used, fail, hm, past, Option.toList, List.mem_append, List.mem_cons] at hj ⊢
    grind
  · rename_i hm
    refine keeps_of rfl fun j hj => ?_
    simp only [all, used, hm, past, Option.toList, List.mem_append, List.mem_cons] at hj ⊢
    grind
  · rename_i hm
    simp only
    split
    · refine keeps_of rfl fun j hj => ?_
      simp only [all, used, hm, past, Option.toList, List.mem_append, List.mem_cons] at hj ⊢
      grind
    · have := keeps_shift p
      rw [show { p with mid := some .last } = p by rw [← hm]] at this
      exact this.trans (keeps_resume _ _)

theorem keeps_ev (p : UdpP) (h : Own p) (c : Cfg) (maxN : Nat) (e : Ev) : Keeps p (p.ev c maxN e) := by
  unfold ev
  split
  · exact keeps_sendDone p (by assumption) _ _
  · rename_i hm
    refine keeps_recvBegin p hm ?_ _ _
    have := h.held
    rw [hm] at this
    cases hp : p.held <;> simp [hp, past] at this ⊢
  · unfold timeout
    split
    · exact keeps_of rfl fun j hj => hj
    · exact .refl p
  · split
    · exact .refl p
    · exact keeps_recvEnd p _
  · exact .refl p

theorem keeps_act (p : UdpP) (h : Own p) (c : Cfg) (maxN : Nat) (a : Act) (ha : a ≠ .handler) : Keeps p (p.act c maxN a) := by
  unfold act
  split
  · exact .refl p
  · cases a
    · exact keeps_take p
    · exact keeps_fill p _
    · exact keeps_dispatch p _
    · exact absurd rfl ha
    · exact keeps_ev p h _ _ _
    · exact keeps_giveBack p

/-- Objects are constructed only if the pool is empty, ten at a time. -/
theorem made_act (p : UdpP) (c : Cfg) (maxN : Nat) (a : Act) : (p.act c maxN a).made = p.made ∨ (p.pool = [] ∧ (p.act c maxN a).made = p.made + 10) := by
  unfold act
  split
  · exact .inl rfl
  · cases a
    · show p.take.made = _ ∨ _ ∧ p.take.made = _
      have hs : p.stock.made = p.made ∨ (p.pool = [] ∧ p.stock.made = p.made + 10) := by
        unfold stock
        split
        · exact .inr ⟨by assumption, rfl⟩
        · exact .inl rfl
      unfold take
      split
      · exact .inl rfl
      · split <;> exact hs
    · left; show (p.fill _).made = _; unfold fill; split <;> rfl
    · left; show (p.dispatch _).made = _; unfold dispatch write; (repeat' (first | rfl | split)); all_goals (simp only; repeat' (first | rfl | split))
    · exact .inl rfl
    · left
      show (p.ev _ _ _).made = _
      unfold ev
      split
      · unfold sendDone fail close read
        split
        · rfl
        · simp only
          repeat' (first | rfl | (rw [next_made]) | split)
      · unfold recvBegin fail close
        split
        · rfl
        · simp only
          repeat' (first | rfl | split)
      · unfold timeout close; split <;> rfl
      · split
        · rfl
        · unfold recvEnd fail
          split
          · rfl
          · rfl
          · rfl
          · simp only
            split
            · rfl
            · have hs : ∀ q : UdpP, q.shift.made = q.made := by intro q; unfold shift read; repeat' (first | rfl | split)
              have hr : ∀ q : UdpP, (q.resume maxN).made = q.made := by
                intro q; unfold resume; simp only; repeat' (first | rfl | exact next_made _ _ | split)
              rw [hr, hs]
      · rfl
    · left; show p.giveBack.made = _; unfold giveBack; split <;> rfl

end UdpP
end Verif
