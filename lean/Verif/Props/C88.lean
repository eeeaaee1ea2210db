import Verif.Spec.Pool
import Verif.Lemmas.PoolUdp
import Verif.Lemmas.PoolPaged
/-!
# C88: packets are not mixed up although their buffers are used again

For UDP (two threads) and for PCIe and mmap clients; TCP is in `C88Tcp`. After a failed validation the object of the packet is given back twice
(by `validate`, ClientInterface.cpp:200, and by `dispatchExceptionHandler`, ProtocolUDP.cpp:489, because `validate` resets a
copy of the pointer). That has no effect because the exception handler ends with emptying the pool
(`deleteBuffers`, ClientInterface.cpp:366).
-/

set_option autoImplicit false
set_option linter.unusedSimpArgs false

namespace Verif

open Spec

theorem apart_of {ls : List (List Nat)} (h : ∀ i, ls.flatten.count i ≤ 1) : Apart ls := by
  induction ls with
  | nil => exact ⟨by simp, .nil⟩
  | cons l ls ih =>
    simp only [List.flatten_cons, List.count_append] at h
    obtain ⟨h1, h2⟩ := ih fun i => by have := h i; omega
    refine ⟨?_, List.Pairwise.cons ?_ h2⟩
    · intro x hx
      rcases List.mem_cons.mp hx with rfl | hx
      · exact nodup_of_count fun i => by have := h i; omega
      · exact h1 x hx
    · intro b hb i hi hib
      have c1 := List.count_pos_iff.mpr hi
      have c2 : 0 < ls.flatten.count i := List.count_pos_iff.mpr (List.mem_flatten.mpr ⟨b, hb, hib⟩)
      have := h i
      omega

namespace UdpP

/-- The steps of `Udp` that correspond to a schedule. -/
def acts (c : Cfg) (N : Nat) : UdpP → List Act → List Verif.Act
  | _, [] => []
  | p, a :: as => (p.toUdp a).toList ++ acts c N (p.act c N a) as

theorem sim (c : Cfg) (N : Nat) (as : List Act) : ∀ (p : UdpP) (u : Udp), Own p → Like p u → Book N p →
    Own (as.foldl (act c N) p) ∧ Like (as.foldl (act c N) p) ((acts c N p as).foldl (Udp.act c N) u) ∧ Book N (as.foldl (act c N) p) := by
  induction as with
  | nil => exact fun p u h1 h2 h3 => ⟨h1, h2, h3⟩
  | cons a as ih =>
    intro p u h1 h2 h3
    have l := like_act h1 h2 c N a
    simp only [List.foldl_cons, acts, List.foldl_append]
    have e : (p.toUdp a).toList.foldl (Udp.act c N) u = (match p.toUdp a with | none => u | some b => u.act c N b) := by
      cases p.toUdp a <;> rfl
    rw [e]
    exact ih _ _ (own_act h1 c N a) l (book_act h1 h3 c a)

theorem reach (c : Cfg) (N : Nat) (as : List Act) :
    Own (run c N as) ∧ Like (run c N as) (Udp.sched c N (acts c N init as)) ∧ Book N (run c N as) :=
  sim c N as init Udp.init own_init like_init ⟨rfl, fun _ => .inl rfl⟩

end UdpP

/-- In every schedule (any interleaving with the network thread, failed validations, exception handlers at any moment): the pool, the
user thread, the queues and the calls of the transport hold different objects. The packet in `mReplyBuffers` counts until it
has been validated or there is an exception; after that nobody looks at its contents. -/
theorem C88_apart (c : Cfg) (N : Nat) (as : List UdpP.Act) :
    let p := UdpP.run c N as
    Apart [p.pool, p.cur.toList, p.disp.toList, p.dispQ, p.replyQ, p.held.toList,
      if p.exc = none ∧ (p.mid = none ∨ p.mid = some .failed) then p.reply.toList else []] := by
  intro p
  have h := (UdpP.reach c N as).1
  apply apart_of
  intro i
  have h1 : p.owns i ≤ 1 := h.one i
  simp only [UdpP.owns, UdpP.live] at h1
  have e : (if p.exc = none ∧ (p.mid = none ∨ p.mid = some .failed) then p.reply.toList else []) =
      (if p.exc.isNone && !UdpP.past p.mid then p.reply.toList else []) := by
    cases he : p.exc <;> cases hm : p.mid with
    | none => simp [UdpP.past]
    | some m => cases m <;> simp [UdpP.past]
  rw [e]
  simp only [List.flatten_cons, List.flatten_nil, List.count_append, List.count_nil]
  show p.pool.count i + (p.cur.toList.count i + (p.disp.toList.count i + (p.dispQ.count i + (p.replyQ.count i + (p.held.toList.count i + (_ + 0)))))) ≤ 1
  omega

/-- Packets are sent in the order and with the contents they had when they were handed over. -/
theorem C88_sent (c : Cfg) (N : Nat) (as : List UdpP.Act) :
    SentAsGiven (UdpP.run c N as).dispatched (UdpP.run c N as).sent :=
  ⟨_, (UdpP.reach c N as).2.2.1.symm⟩

/-- The client with the pool does what the client of `Udp` does, in which packets are values: the same packets sent, the same
replies validated against the same packets, the same memory of the user, the same exceptions. -/
theorem C88_values (c : Cfg) (N : Nat) (as : List UdpP.Act) :
    let p := UdpP.run c N as
    let u := Udp.sched c N (UdpP.acts c N UdpP.init as)
    u.heap = p.heap ∧ u.exc = p.exc ∧ u.flushDone = p.flushDone ∧ u.log = p.log ∧ u.sent = p.sent ∧ u.dispatched = p.dispatched ∧
      u.inFlight = p.inFlight ∧ u.crashed = p.crashed ∧ u.dispQ = p.dispQ.map p.mem ∧ u.replyQ = p.replyQ.map p.mem ∧ u.disp = p.disp.map p.mem := by
  have h := (UdpP.reach c N as).2.1
  exact ⟨h.heap, h.exc, h.flushDone, h.log, h.sent, h.dispatched, h.inFlight, h.crashed, h.dispQ, h.replyQ, h.disp⟩

/-- A new packet begins empty, in an object that is nowhere else. -/
theorem C88_fresh (c : Cfg) (N : Nat) (as : List UdpP.Act) (hc : (UdpP.run c N as).crashed = false) (hn : (UdpP.run c N as).cur = none) :
    let p := UdpP.run c N (as ++ [.take])
    ∃ i, p.cur = some i ∧ p.mem i = Buf.empty ∧ i ∉ p.pool ++ p.disp.toList ++ p.dispQ ++ p.replyQ ++ p.held.toList := by
  intro p
  have h := (UdpP.reach c N (as ++ [.take])).1
  have e : p = (UdpP.run c N as).take := by
    show (as ++ [UdpP.Act.take]).foldl (UdpP.act c N) UdpP.init = _
    rw [List.foldl_append]
    show UdpP.act c N (UdpP.run c N as) .take = _
    simp [UdpP.act, hc]
  obtain ⟨i, is, hi⟩ : ∃ i is, (UdpP.run c N as).stock.pool = i :: is := by
    unfold UdpP.stock
    split
    · exact ⟨_, _, rfl⟩
    · rename_i q
      cases hp : (UdpP.run c N as).pool with
      | nil => exact absurd hp q
      | cons i is => exact ⟨i, is, rfl⟩
  have ec : p.cur = some i := by rw [e]; simp [UdpP.take, hn, hi, UdpP.put]
  refine ⟨i, ec, ?_, ?_⟩
  · rw [e]; simp [UdpP.take, hn, hi, UdpP.put]
  · have h1 := h.one i
    have ec' : (UdpP.run c N (as ++ [.take])).cur = some i := ec
    simp only [UdpP.owns, ec', Option.toList_some, List.count_cons, List.count_nil, beq_self_eq_true, if_true] at h1
    intro hm
    have := List.count_pos_iff.mpr hm
    simp only [List.count_append] at this
    show False
    have t : 0 < (UdpP.run c N (as ++ [.take])).pool.count i + (UdpP.run c N (as ++ [.take])).disp.toList.count i +
      (UdpP.run c N (as ++ [.take])).dispQ.count i + (UdpP.run c N (as ++ [.take])).replyQ.count i +
      (UdpP.run c N (as ++ [.take])).held.toList.count i := this
    omega

/-- After an exception no object of an earlier packet is left, neither one that was being filled nor one that waits. -/
theorem C88_dropped (c : Cfg) (N : Nat) (as : List UdpP.Act) (hc : (UdpP.run c N as).crashed = false) :
    let p := UdpP.run c N (as ++ [.handler])
    p.cur = none ∧ p.disp = none ∧ p.reply = none ∧ p.dispQ = [] ∧ p.replyQ = [] ∧ p.pool = [] ∧ p.exc = none := by
  have e : UdpP.run c N (as ++ [.handler]) = (UdpP.run c N as).handler := by
    show (as ++ [UdpP.Act.handler]).foldl (UdpP.act c N) UdpP.init = _
    rw [List.foldl_append]
    show UdpP.act c N (UdpP.run c N as) .handler = _
    simp [UdpP.act, hc]
  rw [e]
  exact ⟨rfl, rfl, rfl, rfl, rfl, rfl, rfl⟩

theorem C88_paged_dropped (as : List PagedP.Act) :
    let p := PagedP.run (as ++ [.handler])
    p.cur = none ∧ p.queue = [] ∧ p.pool = [] := by
  have e : PagedP.run (as ++ [.handler]) = (PagedP.run as).handler := by
    show (as ++ [PagedP.Act.handler]).foldl PagedP.act PagedP.init = _
    rw [List.foldl_append]
    rfl
  rw [e]
  exact ⟨rfl, rfl, rfl⟩

/-- PCIe and mmap clients: the same, and packets are matched with pages in the order and with the contents with which they were
written. -/
theorem C88_paged (as : List PagedP.Act) :
    let p := PagedP.run as
    Apart [p.pool, p.cur.toList, p.queue] ∧ SentAsGiven p.written p.taken := by
  intro p
  have h : PagedP.Own (PagedP.run as) := by
    have : ∀ (as : List PagedP.Act) (q : PagedP), PagedP.Own q → PagedP.Own (as.foldl PagedP.act q) := by
      intro as
      induction as with
      | nil => exact fun _ h => h
      | cons a as ih => exact fun q h => ih _ (PagedP.own_act h a)
    exact this as _ PagedP.own_init
  refine ⟨apart_of fun i => ?_, _, h.kept.symm⟩
  have h1 := h.one i
  simp only [PagedP.owns] at h1
  simp only [List.flatten_cons, List.flatten_nil, List.count_append, List.count_nil]
  show p.pool.count i + (p.cur.toList.count i + (p.queue.count i + 0)) ≤ 1
  have h2 : p.pool.count i + p.cur.toList.count i + p.queue.count i ≤ 1 := h1
  omega

/-! ### Not vacuous -/

section
private def cfg : Cfg := ⟨.v2, none, 1400, 1400, true⟩
private def pkt (w : W) : Buf → Buf := fun _ => ⟨[0x200000F0, 0x2000010F, w], [⟨.pkt 0, 1⟩, ⟨.hdr 0 0, 1⟩, ⟨.data 0 0, 1⟩], [0]⟩
private def sendOne (w : W) : List UdpP.Act := [.take, .fill (pkt w), .dispatch, .ev (.sendDone true)]

/-- A reply with an error code: an exception is set, the object is in the pool while `mReplyBuffers` still points to it. -/
private def bad : List UdpP.Act := sendOne 16 ++ [.ev (.recvBegin (some [0x200000F0, 0x20000104, 1])), .giveBack, .ev .recvEnd, .ev .recvEnd]

example : let p := UdpP.run cfg 16 bad
    p.exc.isSome = true ∧ p.reply = some 0 ∧ p.pool = [1, 2, 3, 4, 5, 6, 7, 8, 9, 0] ∧ p.sent.length = 1 := by
  decide +kernel

/-- After the handler nothing points to it, and the next packet is in a new object. -/
example : let p := UdpP.run cfg 16 (bad ++ [.handler, .take])
    p.exc = none ∧ p.reply = none ∧ p.cur = some 10 ∧ p.pool.length = 9 := by
  decide +kernel

/-- Eleven packets and eleven good replies: objects are used again. -/
private def good (k : Nat) : List UdpP.Act :=
  (List.range k).flatMap fun n => sendOne (BitVec.ofNat 32 n) ++ [.ev (.recvBegin (some [0x200000F0, 0x20000100, 7])), .giveBack, .ev .recvEnd]

example : let p := UdpP.run cfg 16 (good 11 ++ sendOne 99)
    p.exc = none ∧ p.reply = some 1 ∧ p.sent.length = 12 ∧ p.log.length = 11 ∧ p.made = 10 := by
  decide +kernel

example : let p := PagedP.run [.take, .fill (pkt 1), .write, .take, .fill (pkt 2), .write, .read .validated, .take]
    p.cur = some 2 ∧ p.pool = [3, 4, 5, 6, 7, 8, 9, 0] ∧ p.queue = [1] ∧ p.taken.length = 1 := by
  decide +kernel
end

end Verif
