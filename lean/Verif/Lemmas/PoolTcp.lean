import Verif.Model.PoolTcp
import Verif.Lemmas.Pool
/-!
# Who holds a buffer of the TCP client

As `Verif/Lemmas/Pool.lean`. Of the packets in `mReplyBuffers.first` those count that have not been validated yet.
-/

set_option autoImplicit false
set_option linter.unusedSimpArgs false

namespace Verif
namespace TcpP

/-- The objects in `mReplyBuffers.first` that something may still read. -/
def live (p : TcpP) : List Nat :=
  match p.exc, p.mid with
  | some _, _ => []
  | none, some (.check todo _ _) => todo
  | none, some (.invalid _ _ _) => []
  | none, some .notify => []
  | none, _ => p.reply

/-- Number of places that hold object `i`. -/
def owns (p : TcpP) (i : Nat) : Nat :=
  p.pool.count i + p.cur.toList.count i + p.disp.count i + p.dispQ.count i + p.replyQ.flatten.count i + p.live.count i + p.held.toList.count i

/-- In `validate`. -/
def inside : Option PMid → Bool
  | some (.check _ _ _) => true
  | some (.invalid _ _ _) => true
  | _ => false

/-- Invariant. -/
structure Own (p : TcpP) : Prop where
  one : ∀ i, p.owns i ≤ 1
  lt : ∀ i, p.made ≤ i → p.owns i = 0
  held : p.held.isSome → inside p.mid = true
  exc : p.exc.isSome → p.mid = none ∨ p.mid = some .notify
  note : p.mid = some .notify → p.exc = none → p.reply = []

theorem own_init : Own init :=
  ⟨fun i => by simp [owns, init, live], fun i _ => by simp [owns, init, live], by simp [init], by simp [init], by simp [init]⟩

theorem own_stock {p : TcpP} (h : Own p) : Own p.stock := by
  unfold stock
  split
  · rename_i e
    refine ⟨fun i => ?_, fun i hi => ?_, h.held, h.exc, h.note⟩
    · have h1 := h.one i
      have h2 := h.lt i
      simp only [owns, live, e, List.count_nil] at h1 h2 ⊢
      rw [UdpP.count_stock]
      split
      · have := h2 (by omega); omega
      · omega
    · have h2 := h.lt i (by simp only at hi; omega)
      simp only [owns, live, e, List.count_nil] at h2 hi ⊢
      rw [UdpP.count_stock, if_neg (by omega)]
      omega
  · exact h

theorem own_take {p : TcpP} (h : Own p) : Own p.take := by
  unfold take
  split
  · exact h
  · rename_i e
    have hs := own_stock h
    have ec : p.stock.cur = none := by rw [← e]; unfold stock; split <;> rfl
    split
    · exact hs
    · rename_i i is e2
      refine ⟨fun j => ?_, fun j hj => ?_, hs.held, hs.exc, hs.note⟩
      · have := hs.one j
        simp only [owns, live, put, e2, ec, Option.toList, List.count_cons, List.count_nil] at this ⊢
        omega
      · have := hs.lt j hj
        simp only [owns, live, put, e2, ec, Option.toList, List.count_cons, List.count_nil] at this ⊢
        omega

theorem own_fill {p : TcpP} (h : Own p) (f : Buf → Buf) : Own (p.fill f) := by
  unfold fill
  split
  · exact h
  · exact ⟨h.one, h.lt, h.held, h.exc, h.note⟩

/-- Nothing else matters for the count. -/
theorem own_of {p q : TcpP} (h : Own p) (hm : p.made = q.made) (ho : ∀ i, q.owns i ≤ p.owns i) (hh : q.held.isSome → inside q.mid = true)
    (he : q.exc.isSome → q.mid = none ∨ q.mid = some .notify) (hn : q.mid = some .notify → q.exc = none → q.reply = []) : Own q :=
  ⟨fun i => Nat.le_trans (ho i) (h.one i), fun i hi => by have := ho i; have := h.lt i (hm ▸ hi); omega, hh, he, hn⟩

theorem own_giveBack {p : TcpP} (h : Own p) : Own p.giveBack := by
  unfold giveBack
  split
  · exact h
  · rename_i i e
    refine own_of h rfl (fun j => ?_) (by simp) h.exc h.note
    simp only [owns, live, e, Option.toList, List.count_cons, List.count_nil, List.count_append]
    omega

theorem count_map_nil (l : List (List Nat)) (i : Nat) : (l.map fun _ => ([] : List Nat)).flatten.count i = 0 := by
  induction l with
  | nil => rfl
  | cons a l ih => simpa using ih

/-- The pool is empty, the transport holds nothing. -/
def cleared (p : TcpP) : TcpP :=
  { p.close with flushDone := true, exc := none, pc := .idle, pool := [], dispQ := [], replyQ := p.replyQ.map fun _ => [], inFlight := 0, disp := [], reply := []
                 cur := none, dispatched := [], sent := [] }

theorem handler_eq (p : TcpP) : p.handler = { p with crashed := true } ∨ (p.handler = p.cleared ∧ ∀ i is ws b, p.mid ≠ some (.check (i :: is) ws b)) := by
  unfold handler
  split
  · exact .inl rfl
  · rename_i h
    exact .inr ⟨rfl, fun i is ws b e => h i is ws b e⟩

theorem own_crash {p : TcpP} (h : Own p) : Own { p with crashed := true } := own_of h rfl (fun _ => Nat.le_refl _) h.held h.exc h.note

theorem own_handler {p : TcpP} (h : Own p) : Own p.handler := by
  rcases handler_eq p with e | ⟨e, hc⟩
  · rw [e]; exact own_crash h
  · rw [e]
    refine own_of h rfl (fun j => ?_) h.held (fun a => by simp [cleared, close] at a) (fun _ _ => rfl)
    have hl : p.cleared.live.count j = 0 := by
      unfold live cleared close
      simp only
      cases hm : p.mid with
      | none => simp
      | some m =>
        cases m with
        | check todo ws b =>
          cases todo with
          | nil => simp
          | cons i is => exact absurd hm (hc i is ws b)
        | _ => simp
    simp only [owns, hl]
    simp only [cleared, close, Option.toList, List.count_nil, count_map_nil]
    omega

theorem count_take_drop (l : List Nat) (n i : Nat) : (l.take n).count i + (l.drop n).count i = l.count i := by
  rw [← List.count_append, List.take_append_drop]

theorem write_owns (n : Nat) (p : TcpP) (i : Nat) : (p.write n).owns i = p.owns i := by
  have := count_take_drop p.dispQ n i
  simp only [owns, live, write, List.count_append]
  omega

theorem own_write {p : TcpP} (h : Own p) (n : Nat) : Own (p.write n) :=
  own_of h rfl (fun i => Nat.le_of_eq (write_owns n p i)) h.held h.exc h.note

theorem handOver_owns {p : TcpP} (he : p.exc = none) (hm : p.mid = none) (i : Nat) : p.handOver.owns i = p.owns i := by
  unfold handOver
  split
  · simp [owns, live, List.flatten_append]; omega
  · rename_i hr
    have hr : p.reply = [] := Decidable.not_not.mp hr
    simp [owns, live, read, he, hm, hr]
    omega

theorem own_handOver {p : TcpP} (h : Own p) (he : p.exc = none) (hm : p.mid = none) : Own p.handOver := by
  have e1 : p.handOver.mid = none := by unfold handOver; split <;> exact hm
  have e2 : p.handOver.exc = none := by unfold handOver; split <;> exact he
  have e3 : p.handOver.held = p.held := by unfold handOver; split <;> rfl
  refine own_of h (by unfold handOver; split <;> rfl) (fun i => Nat.le_of_eq (handOver_owns he hm i)) ?_ ?_ ?_
  · rw [e1, e3, ← hm]; exact h.held
  · simp [e2]
  · simp [e1]

theorem own_fail {p : TcpP} (h : Own p) (hm : p.mid = none) (hh : p.held = none) (e : Exc) : Own (p.fail e) := by
  refine own_of h rfl (fun i => ?_) (by simp [fail, hh]) (fun _ => .inl hm) (fun a => by simp [fail, hm] at a)
  simp [owns, live, fail]

theorem own_close {p : TcpP} (h : Own p) : Own p.close := own_of h rfl (fun _ => Nat.le_refl _) h.held h.exc h.note

theorem held_none {p : TcpP} (h : Own p) (hm : p.mid = none) : p.held = none := by
  have := h.held
  rw [hm] at this
  cases hp : p.held <;> simp [hp, inside] at this ⊢

theorem own_sendDone {p : TcpP} (h : Own p) (hm : p.mid = none) (n N : Nat) (ok : Bool) : Own (p.sendDone n N ok) := by
  have hh := held_none h hm
  unfold sendDone
  split
  · exact h
  · rename_i o ops _
    have h' : Own { p with sendOps := ops } := own_of h rfl (fun _ => Nat.le_refl _) h.held h.exc h.note
    simp only
    split
    · exact own_of h rfl (fun _ => Nat.le_refl _) h.held h.exc h.note
    · rename_i he
      have he : p.exc = none := by cases hp : p.exc <;> simp [hp] at he ⊢
      split
      · exact own_fail h' hm hh _
      · split
        · exact own_fail (own_close h') hm hh _
        · split
          · exact own_write (own_handOver h' he hm) _
          · exact own_handOver h' he hm

theorem own_recvHdr {p : TcpP} (h : Own p) (hm : p.mid = none) (r : Option Nat) : Own (p.recvHdr r) := by
  have hh := held_none h hm
  unfold recvHdr
  split
  · exact h
  · rename_i o ops _
    have h' : Own { p with recvOps := ops } := own_of h rfl (fun _ => Nat.le_refl _) h.held h.exc h.note
    simp only
    split
    · exact own_of h rfl (fun _ => Nat.le_refl _) h.held h.exc h.note
    · rename_i he
      have he : p.exc = none := by cases hp : p.exc <;> simp [hp] at he ⊢
      split
      · exact own_fail h' hm hh _
      · split
        · exact own_of h rfl (fun i => by simp [owns, live, he, hm]) (by simp [hh]) (by simp [he]) (by simp)
        · exact own_of h rfl (fun i => by simp [owns, live, he, hm]) (by simp [hh]) (by simp [he]) (by simp)

theorem own_recvBody {p : TcpP} (h : Own p) (r : Option (List W)) : Own (p.recvBody r) := by
  unfold recvBody
  split
  · rename_i k hm
    have he : p.exc = none := by
      have := h.exc
      rw [hm] at this
      cases hp : p.exc <;> simp [hp] at this ⊢
    have hh : p.held = none := by
      have := h.held
      rw [hm] at this
      cases hp : p.held <;> simp [hp, inside] at this ⊢
    split
    · exact own_of h rfl (fun i => by simp [owns, live, he, hm]) (by simp [hh]) (by simp [he]) (by simp)
    · split
      · exact own_of h rfl (fun i => by simp [owns, live, he, hm]) (by simp [hh]) (by simp [he]) (by simp)
      · exact own_of h rfl (fun i => by simp [owns, live, he, hm]) (by simp [hh]) (by simp [he]) (by simp)
  · exact h

theorem own_valid {p : TcpP} (h : Own p) (c : Cfg) : Own (p.valid c) := by
  unfold valid
  split
  · rename_i i is ws body hm hh
    have he : p.exc = none := by
      have := h.exc
      rw [hm] at this
      cases hp : p.exc <;> simp [hp] at this ⊢
    split
    · exact own_of h rfl (fun j => by simp [owns, live, he, hm, hh, List.count_cons] <;> omega) (by simp [inside]) (by simp [he]) (by simp)
    · exact own_of h rfl (fun j => by simp [owns, live, he, hm, hh, List.count_cons] <;> omega) (by simp [inside]) (by simp [he]) (by simp)
    · exact own_crash h
  · exact h

theorem own_pop {p : TcpP} (h : Own p) (he : p.exc = none) {ws b : List W} (hm : p.mid = some (.check [] ws b)) (hh : p.held = none) :
    Own { p with mid := none }.pop := by
  unfold pop
  simp only
  split
  · rename_i b q e
    refine own_of h rfl (fun j => ?_) (by simp [read, hh]) (by simp [read, he]) (by simp [read])
    simp [owns, live, read, he, hm, hh, e]
    omega
  · refine own_of h rfl (fun j => ?_) (by simp [hh]) (by simp [he]) (by simp)
    simp [owns, live, he, hm, hh]

theorem own_quiet {q : TcpP} (h : Own q) : Own (if q.disp = [] && q.reply = [] then { q with deadline := .armed, flushDone := true } else q) := by
  split
  · exact own_of h rfl (fun _ => Nat.le_refl _) h.held h.exc h.note
  · exact h

theorem own_recvEnd {p : TcpP} (h : Own p) (hh : p.held = none) (n N : Nat) : Own (p.recvEnd n N) := by
  unfold recvEnd
  split
  · rename_i hm
    refine own_of h rfl (fun i => ?_) (by simp [fail, close, hh]) (fun _ => .inl rfl) (fun a => by simp [fail, close] at a)
    simp [owns, live, fail, close]
  · exact own_of h rfl (fun i => by simp [owns, live]) (by simp [hh]) (fun _ => .inr rfl) (by simp)
  · rename_i hm
    refine own_of h rfl (fun i => ?_) (by simp [hh]) (fun _ => .inl rfl) (by simp)
    cases he : p.exc with
    | some e => simp [owns, live, he]
    | none => simp [owns, live, he, hm, h.note hm he]
  · rename_i ws b hm
    have he : p.exc = none := by
      have := h.exc
      rw [hm] at this
      cases hp : p.exc <;> simp [hp] at this ⊢
    have hp := own_pop h he hm hh
    unfold advance
    simp only
    apply own_quiet
    split
    · exact own_write hp _
    · exact hp
  · exact h

theorem own_net {p : TcpP} (h : Own p) (c : Cfg) (n N : Nat) (e : Net) : Own (p.net c n N e) := by
  unfold net
  split
  · exact own_sendDone h (by assumption) _ _ _
  · exact own_recvHdr h (by assumption) _
  · unfold timeout
    split
    · exact own_of h rfl (fun _ => Nat.le_refl _) h.held h.exc h.note
    · exact h
  · exact own_recvBody h _
  · exact own_valid h _
  · exact own_giveBack h
  · split
    · exact h
    · rename_i hh
      exact own_recvEnd h (by cases hp : p.held <;> simp [hp] at hh ⊢) _ _
  · exact h

theorem own_dispatch {p : TcpP} (h : Own p) (n N : Nat) (conn : Bool) : Own (p.dispatch n N conn) := by
  unfold dispatch
  split
  · exact h
  · rename_i i hc
    split
    · exact own_of h rfl (fun _ => Nat.le_refl _) h.held h.exc h.note
    · rename_i he
      split
      · exact own_of h rfl (fun _ => Nat.le_refl _) h.held h.exc h.note
      · have key : ∀ (s : Bool) (d : Deadline), Own { p with sock := s, deadline := d, cur := none, flushStarted := false, dispQ := p.dispQ ++ [i], dispatched := p.dispatched ++ [p.mem i] } := by
          intro s d
          refine own_of h rfl (fun j => ?_) h.held h.exc h.note
          simp [owns, live, hc]
          omega
        simp only
        cases hs : p.sock
        · simp only [Bool.false_eq_true, if_false]
          split
          · exact own_write (key true .armed) _
          · exact key true .armed
        · simp only [if_true]
          split
          · exact own_write (hs ▸ key p.sock p.deadline) _
          · exact hs ▸ key p.sock p.deadline

theorem own_act {p : TcpP} (h : Own p) (c : Cfg) (n N : Nat) (a : Act) : Own (p.act c n N a) := by
  unfold act
  split
  · exact h
  · cases a
    · exact own_take h
    · exact own_fill h _
    · simp only; split
      · exact own_dispatch h _ _ _
      · exact h
    · simp only; split
      · unfold flushStart
        simp only
        have h' : Own { p with flushStarted := true, pc := .flushing } := own_of h rfl (fun _ => Nat.le_refl _) h.held h.exc h.note
        split
        · exact own_write h' _
        · exact h'
      · exact h
    · simp only; split
      · unfold flushEnd
        repeat' split
        all_goals first | exact h | exact own_of h rfl (fun _ => Nat.le_refl _) h.held h.exc h.note
      · exact h
    · simp only; split
      · exact own_handler h
      · exact h
    · exact own_net h _ _ _ _

end TcpP
end Verif
