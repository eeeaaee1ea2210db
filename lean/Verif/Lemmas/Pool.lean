import Verif.Model.Pool
/-!
# Who holds a buffer

Each object is held by one place at a time: the pool, the user thread, one of the queues of the transport, or the call of
`validate`. `mReplyBuffers` does not count once its packet has been validated or an exception is waiting: then nothing reads
it before it is replaced.
-/

set_option autoImplicit false
set_option linter.unusedSimpArgs false

namespace Verif
namespace UdpP

/-- The packet in `mReplyBuffers` has been validated. -/
def past : Option Mid → Bool
  | some (.invalid _ _) => true
  | some .last => true
  | _ => false

/-- `mReplyBuffers`, if something may still read the object. -/
def live (p : UdpP) : List Nat := if p.exc.isNone && !past p.mid then p.reply.toList else []

/-- Number of places that hold object `i`. -/
def owns (p : UdpP) (i : Nat) : Nat :=
  p.pool.count i + p.cur.toList.count i + p.disp.toList.count i + p.dispQ.count i + p.replyQ.count i + p.live.count i + p.held.toList.count i

/-- Invariant. -/
structure Own (p : UdpP) : Prop where
  one : ∀ i, p.owns i ≤ 1
  lt : ∀ i, p.made ≤ i → p.owns i = 0
  held : p.held.isSome → past p.mid = true

theorem map_put {l : List Nat} {i : Nat} {b : Buf} {m : Nat → Buf} (h : l.count i = 0) :
    l.map (fun j => if j = i then b else m j) = l.map m := by
  apply List.map_congr_left
  intro j hj
  have : j ≠ i := fun e => (List.count_eq_zero.mp h) (e ▸ hj)
  simp [this]

theorem omap_put {l : Option Nat} {i : Nat} {b : Buf} {m : Nat → Buf} (h : l.toList.count i = 0) :
    l.map (fun j => if j = i then b else m j) = l.map m := by
  cases l with
  | none => rfl
  | some j =>
    have : j ≠ i := by intro e; subst e; simp at h
    simp [this]

theorem count_stock (a n i : Nat) : (List.range' a n).count i = if a ≤ i ∧ i < a + n then 1 else 0 := by
  induction n generalizing a with
  | zero => simp
  | succ n ih =>
    rw [List.range'_succ, List.count_cons, ih]
    simp only [beq_iff_eq]
    repeat' split
    all_goals omega

theorem own_init : Own init := ⟨fun i => by simp [owns, init, live], fun i _ => by simp [owns, init, live], by simp [init]⟩

theorem own_stock {p : UdpP} (h : Own p) : Own p.stock := by
  unfold stock
  split
  · rename_i e
    refine ⟨fun i => ?_, fun i hi => ?_, h.held⟩
    · have h1 := h.one i
      have h2 := h.lt i
      simp only [owns, live, e, List.count_nil] at h1 h2 ⊢
      rw [count_stock]
      split
      · have := h2 (by omega); omega
      · omega
    · have h2 := h.lt i (by simp only at hi; omega)
      simp only [owns, live, e, List.count_nil] at h2 hi ⊢
      rw [count_stock, if_neg (by omega)]
      omega
  · exact h

theorem own_take {p : UdpP} (h : Own p) : Own p.take := by
  unfold take
  split
  · exact h
  · rename_i e
    have hs := own_stock h
    have ec : p.stock.cur = none := by rw [← e]; unfold stock; split <;> rfl
    split
    · exact hs
    · rename_i i is e2
      refine ⟨fun j => ?_, fun j hj => ?_, hs.held⟩
      · have := hs.one j
        simp only [owns, live, put, e2, ec, Option.toList, List.count_cons, List.count_nil] at this ⊢
        omega
      · have := hs.lt j hj
        simp only [owns, live, put, e2, ec, Option.toList, List.count_cons, List.count_nil] at this ⊢
        omega

theorem own_fill {p : UdpP} (h : Own p) (f : Buf → Buf) : Own (p.fill f) := by
  unfold fill
  split
  · exact h
  · exact ⟨h.one, h.lt, h.held⟩

theorem own_giveBack {p : UdpP} (h : Own p) : Own p.giveBack := by
  unfold giveBack
  split
  · exact h
  · rename_i i e
    refine ⟨fun j => ?_, fun j hj => ?_, by simp⟩
    · have := h.one j
      simp only [owns, live, e, Option.toList, List.count_cons, List.count_nil, List.count_append] at this ⊢
      omega
    · have := h.lt j hj
      simp only [owns, live, e, Option.toList, List.count_cons, List.count_nil, List.count_append] at this ⊢
      omega

theorem own_handler {p : UdpP} (h : Own p) : Own p.handler := by
  refine ⟨fun j => ?_, fun j hj => ?_, ?_⟩
  · have := h.one j
    simp [owns, live, handler, close] at this ⊢
    omega
  · have := h.lt j hj
    simp [owns, live, handler, close] at this ⊢
    omega
  · simpa [handler, close] using h.held

/-- Nothing else matters for the invariant. -/
theorem own_of {p q : UdpP} (h : Own p) (hm : p.made = q.made) (hh : q.held.isSome → past q.mid = true)
    (ho : ∀ i, q.owns i ≤ p.owns i) : Own q :=
  ⟨fun i => Nat.le_trans (ho i) (h.one i), fun i hi => by have := ho i; have := h.lt i (hm ▸ hi); omega, hh⟩

theorem next_made (maxN : Nat) (p : UdpP) : (p.next maxN).made = p.made := by
  unfold next write
  repeat' (first | split | rfl)

theorem next_held (maxN : Nat) (p : UdpP) : (p.next maxN).held = p.held := by
  unfold next write
  repeat' (first | split | rfl)

theorem next_mid (maxN : Nat) (p : UdpP) : (p.next maxN).mid = p.mid := by
  unfold next write
  repeat' (first | split | rfl)

/-- `next` forgets `disp`, which the caller has moved or found empty. -/
theorem next_owns (maxN : Nat) (p : UdpP) (i : Nat) : (p.next maxN).owns i ≤ { p with disp := none }.owns i := by
  unfold next
  split
  · rename_i b q e
    split
    · simp [owns, live, write, e, List.count_cons]
      omega
    · simp [owns, live]
  · simp [owns, live]

theorem own_dispatch {p : UdpP} (h : Own p) (maxN : Nat) : Own (p.dispatch maxN) := by
  unfold dispatch
  split
  · exact h
  · exact h
  · rename_i i e1 e2
    simp only
    split
    · refine own_of h rfl h.held fun j => ?_
      simp [owns, live, e1, e2]
      omega
    · rename_i hd
      have hd : p.disp = none := by
        cases hp : p.disp <;> simp [hp] at hd ⊢
      refine own_of h rfl h.held fun j => ?_
      simp [owns, live, write, e1, e2, hd]

theorem own_sendDone {p : UdpP} (h : Own p) (hm : p.mid = none) (maxN : Nat) (ok : Bool) : Own (p.sendDone maxN ok) := by
  unfold sendDone
  split
  · exact h
  · simp only
    split
    · exact own_of h rfl h.held fun j => by simp [owns, live]
    · rename_i he
      split
      · exact own_of h rfl h.held fun j => by simp [owns, live, fail]
      · split
        · exact own_of h rfl h.held fun j => by simp [owns, live]
        · rename_i i ed
          split
          · exact own_of h rfl h.held fun j => by simp [owns, live, fail, close]
          · have hh : p.held = none := by
              have := h.held
              rw [hm] at this
              cases hp : p.held <;> simp [hp, past] at this ⊢
            split
            · refine own_of h ?_ ?_ fun j => Nat.le_trans (next_owns _ _ _) ?_
              · rw [next_made]
              · rw [next_held]; simp [hh]
              · simp [owns, live, ed, hm]; omega
            · rename_i er
              refine own_of h ?_ ?_ fun j => Nat.le_trans (next_owns _ _ _) ?_
              · rw [next_made]; rfl
              · rw [next_held]; simp [hh, read]
              · cases he' : p.exc <;> simp [owns, live, ed, hm, read, er, he', past] <;> omega

theorem own_recvBegin {p : UdpP} (h : Own p) (hm : p.mid = none) (c : Cfg) (r : Option (List W)) : Own (p.recvBegin c r) := by
  have hh : p.held = none := by
    have := h.held
    rw [hm] at this
    cases hp : p.held <;> simp [hp, past] at this ⊢
  unfold recvBegin
  split
  · exact h
  · simp only
    split
    · exact own_of h rfl h.held fun j => by simp [owns, live]
    · rename_i he
      have he' : p.exc = none := by cases hp : p.exc <;> simp [hp] at he ⊢
      split
      · exact own_of h rfl h.held fun j => by simp [owns, live, fail]
      · split
        · exact own_of h rfl h.held fun j => by simp [owns, live]
        · rename_i i er
          split
          · exact own_of h rfl (by simp [close, hh]) fun j => by simp [owns, live, close, hm, past]
          · split
            · exact own_of h rfl (by simp [past]) fun j => by simp [owns, live, hm, past, hh, er, he']
            · exact own_of h rfl (by simp [past]) fun j => by simp [owns, live, hm, past, hh, er, he']
            · exact own_of h rfl h.held fun j => by simp [owns, live]

theorem own_resume {p : UdpP} (h : Own p) (hh : p.held = none) (maxN : Nat) : Own (p.resume maxN) := by
  have key : ∀ q : UdpP, Own q → Own (if q.disp.isNone && q.reply.isNone then { q with deadline := .armed, flushDone := true } else q) := by
    intro q h
    split
    · exact own_of h rfl h.held fun j => by simp [owns, live]
    · exact h
  unfold resume
  apply key
  split
  · refine own_of h ?_ ?_ fun j => Nat.le_trans (next_owns _ _ _) ?_
    · rw [next_made]
    · rw [next_held]; simp [hh]
    · simp [owns, live]
  · exact h

theorem own_recvEnd {p : UdpP} (h : Own p) (hh : p.held = none) (maxN : Nat) : Own (p.recvEnd maxN) := by
  unfold recvEnd
  split
  · exact h
  · exact own_of h rfl (by simp [fail, hh]) fun j => by simp [owns, live, fail]
  · exact own_of h rfl (by simp [past]) fun j => by simp [owns, live]
  · simp only
    split
    · rename_i hm he
      refine own_of h rfl (by simp [hh]) fun j => ?_
      cases he' : p.exc <;> simp [he'] at he
      simp [owns, live, he']
    · rename_i hm he
      have he' : p.exc = none := by cases hp : p.exc <;> simp [hp] at he ⊢
      refine own_resume (own_of h ?_ ?_ ?_) ?_ maxN
      · unfold shift; split <;> simp [read]
      · unfold shift; split <;> simp [read, hh]
      · intro j
        unfold shift
        split
        · rename_i b q e
          simp only at e
          simp [owns, live, read, e, he', hh, hm, past, List.count_cons]
          omega
        · rename_i e
          simp [owns, live, he', hh, hm, past]
      · unfold shift; split <;> simp [read, hh]

theorem own_ev {p : UdpP} (h : Own p) (c : Cfg) (maxN : Nat) (e : Ev) : Own (p.ev c maxN e) := by
  unfold ev
  split
  · exact own_sendDone h (by assumption) _ _
  · exact own_recvBegin h (by assumption) _ _
  · unfold timeout
    split
    · exact own_of h rfl (by simpa [close] using h.held) fun j => by simp [owns, live, close]
    · exact h
  · split
    · exact h
    · rename_i hh
      exact own_recvEnd h (by cases hp : p.held <;> simp [hp] at hh ⊢) _
  · exact h

theorem own_act {p : UdpP} (h : Own p) (c : Cfg) (maxN : Nat) (a : Act) : Own (p.act c maxN a) := by
  unfold act
  split
  · exact h
  · cases a
    · exact own_take h
    · exact own_fill h _
    · exact own_dispatch h _
    · exact own_handler h
    · exact own_ev h _ _ _
    · exact own_giveBack h

end UdpP
end Verif
