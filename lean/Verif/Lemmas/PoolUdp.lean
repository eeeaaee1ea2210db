import Verif.Lemmas.Pool
import Verif.Lemmas.Udp
/-!
# The client with a pool behaves like the client of `Udp`

Simulation: each step of `UdpP` is a step of `Udp` with the contents of the objects for packets, or no step.
-/

set_option autoImplicit false
set_option linter.unusedSimpArgs false

namespace Verif
namespace UdpP

/-- The state of `Udp` seen through the memory. -/
structure Like (p : UdpP) (u : Udp) : Prop where
  dispQ : u.dispQ = p.dispQ.map p.mem
  replyQ : u.replyQ = p.replyQ.map p.mem
  disp : u.disp = p.disp.map p.mem
  reply : u.reply.isSome = p.reply.isSome
  live : p.exc = none → past p.mid = false → u.reply = p.reply.map p.mem
  inFlight : u.inFlight = p.inFlight
  flushDone : u.flushDone = p.flushDone
  exc : u.exc = p.exc
  sock : u.sock = p.sock
  deadline : u.deadline = p.deadline
  sendOps : u.sendOps = p.sendOps
  recvOps : u.recvOps = p.recvOps
  mid : u.mid = p.mid
  heap : u.heap = p.heap
  crashed : u.crashed = p.crashed
  dispatched : u.dispatched = p.dispatched
  sent : u.sent = p.sent
  log : u.log = p.log

theorem like_init : Like init Udp.init := by
  constructor <;> first | rfl | (intros; rfl)

/-- Writing to an object that the transport does not hold. -/
theorem like_put {p : UdpP} {u : Udp} (r : Like p u) {i : Nat} (b : Buf)
    (h : p.disp.toList.count i + p.dispQ.count i + p.replyQ.count i + p.live.count i = 0) : Like (p.put i b) u := by
  have h1 : p.disp.toList.count i = 0 := by omega
  have h2 : p.dispQ.count i = 0 := by omega
  have h3 : p.replyQ.count i = 0 := by omega
  have h4 : p.live.count i = 0 := by omega
  refine { r with dispQ := ?_, replyQ := ?_, disp := ?_, live := ?_ }
  · exact r.dispQ.trans (map_put h2).symm
  · exact r.replyQ.trans (map_put h3).symm
  · exact r.disp.trans (omap_put h1).symm
  · intro a1 a2
    have a1 : p.exc = none := a1
    have a2 : past p.mid = false := a2
    have h5 : p.reply.toList.count i = 0 := by simpa [UdpP.live, a1, a2] using h4
    exact (r.live a1 a2).trans (omap_put h5).symm

theorem like_stock {p : UdpP} {u : Udp} (r : Like p u) : Like p.stock u := by
  unfold stock
  split
  · exact { r with }
  · exact r

theorem like_take {p : UdpP} {u : Udp} (o : Own p) (r : Like p u) : Like p.take u := by
  unfold take
  split
  · exact r
  · have os := own_stock o
    have rs := like_stock r
    split
    · exact rs
    · rename_i i is e
      have h1 := os.one i
      simp only [owns, e, List.count_cons, beq_self_eq_true, if_true] at h1
      refine like_put (p := { p.stock with pool := is, cur := some i }) { rs with } _ ?_
      show p.stock.disp.toList.count i + p.stock.dispQ.count i + p.stock.replyQ.count i + p.stock.live.count i = 0
      omega

theorem like_fill {p : UdpP} {u : Udp} (o : Own p) (r : Like p u) (f : Buf → Buf) : Like (p.fill f) u := by
  unfold fill
  split
  · exact r
  · rename_i i e
    have h1 := o.one i
    simp only [owns, e, Option.toList_some, List.count_cons, List.count_nil, beq_self_eq_true, if_true] at h1
    exact like_put r _ (by omega)

theorem like_giveBack {p : UdpP} {u : Udp} (r : Like p u) : Like p.giveBack u := by
  unfold giveBack
  split
  · exact r
  · exact { r with }

theorem like_close {p : UdpP} {u : Udp} (r : Like p u) : Like p.close u.close :=
  { r with sock := rfl, sendOps := by simp [Udp.close, close, r.sendOps], recvOps := by simp [Udp.close, close, r.recvOps] }

theorem like_handler {p : UdpP} {u : Udp} (r : Like p u) : Like p.handler u.handler := by
  have rc := like_close r
  exact { rc with
    dispQ := rfl, replyQ := rfl, disp := rfl, reply := rfl, live := fun _ _ => rfl, inFlight := rfl, flushDone := rfl, exc := rfl
    dispatched := rfl, sent := rfl }

theorem like_fail {p : UdpP} {u : Udp} (r : Like p u) (e : Exc) (o : List (Buf × Option (List W))) :
    Like (p.fail e) { u.fail e with outcomes := o } :=
  { r with flushDone := rfl, exc := rfl, live := fun h => by simp [fail] at h }

/-- A state of `Udp`, with `reply` and the remaining ghosts. -/
def view (p : UdpP) (rep : Option Buf) (fin : List Buf) (mat : List Rx) (rx : List (List W)) (oc : List (Buf × Option (List W))) (dr : Bool) : Udp :=
  ⟨p.dispQ.map p.mem, p.replyQ.map p.mem, p.disp.map p.mem, rep, p.inFlight, p.flushDone, p.exc, p.sock, p.deadline, p.sendOps, p.recvOps,
   p.mid, p.heap, p.crashed, p.dispatched, p.sent, fin, mat, rx, p.log, oc, dr⟩

theorem Like.opened {p : UdpP} {u : Udp} (r : Like p u) : ∃ rep fin mat rx oc dr, rep.isSome = p.reply.isSome ∧
    (p.exc = none → past p.mid = false → rep = p.reply.map p.mem) ∧ u = view p rep fin mat rx oc dr := by
  refine ⟨u.reply, u.finished, u.matched, u.rx, u.outcomes, u.dirty, r.reply, r.live, ?_⟩
  have h := r
  rcases h with ⟨h1, h2, h3, _, _, h6, h7, h8, h9, h10, h11, h12, h13, h14, h15, h16, h17, h18⟩
  rw [view, ← h1, ← h2, ← h3, ← h6, ← h7, ← h8, ← h9, ← h10, ← h11, ← h12, ← h13, ← h14, ← h15, ← h16, ← h17, ← h18]

theorem like_write {p : UdpP} {u : Udp} (r : Like p u) : Like p.write u.write := by
  obtain ⟨rep, fin, mat, rx, oc, dr, hr, hl, rfl⟩ := r.opened
  unfold write Udp.write view
  cases h : p.disp <;> (constructor <;> simp_all)

theorem like_read {p : UdpP} {u : Udp} (r : Like p u) : Like p.read u.read := by
  obtain ⟨rep, fin, mat, rx, oc, dr, hr, hl, rfl⟩ := r.opened
  unfold read Udp.read view
  cases h : p.reply <;> cases rep <;> simp [h] at hr ⊢ <;> (constructor <;> simp_all)

theorem like_next {p : UdpP} {u : Udp} (r : Like p u) (N : Nat) : Like (p.next N) (u.next N) := by
  obtain ⟨rep, fin, mat, rx, oc, dr, hr, hl, rfl⟩ := r.opened
  unfold next Udp.next view
  cases h : p.dispQ with
  | nil => constructor <;> simp_all
  | cons i q =>
    simp only [List.map_cons]
    split
    · apply like_write
      constructor <;> simp_all
    · constructor <;> simp_all

theorem like_resume {p : UdpP} {u : Udp} (r : Like p u) (N : Nat) :
    Like (p.resume N) (let u := if u.disp.isNone then u.next N else u
      if u.disp.isNone && u.reply.isNone then { u with deadline := .armed, flushDone := true } else u) := by
  have key : ∀ (q : UdpP) (v : Udp), Like q v →
      Like (if q.disp.isNone && q.reply.isNone then { q with deadline := .armed, flushDone := true } else q)
        (if v.disp.isNone && v.reply.isNone then { v with deadline := .armed, flushDone := true } else v) := by
    intro q v r
    have e1 : v.disp.isNone = q.disp.isNone := by rw [r.disp]; cases q.disp <;> rfl
    have e2 : v.reply.isNone = q.reply.isNone := by
      have := r.reply
      cases h1 : v.reply <;> cases h2 : q.reply <;> simp [h1, h2] at this ⊢
    rw [e1, e2]
    split
    · exact { r with deadline := rfl, flushDone := rfl }
    · exact r
  apply key
  have e1 : u.disp.isNone = p.disp.isNone := by rw [r.disp]; cases p.disp <;> rfl
  rw [e1]
  split
  · exact like_next r N
  · exact r

theorem like_inFlight {p : UdpP} {u : Udp} (r : Like p u) (n : Nat) (f : List Buf) : Like { p with inFlight := n } { u with inFlight := n, finished := f } :=
  { r with inFlight := rfl }

theorem like_advance {p : UdpP} {u : Udp} (r : Like { p with reply := none } { u with reply := none }) (N : Nat) : Like (p.shift.resume N) (u.advance N) := by
  have e : u.replyQ = p.replyQ.map p.mem := r.replyQ
  have e2 : u.inFlight = p.inFlight := r.inFlight
  rw [advance_eq]
  refine like_resume ?_ N
  unfold Udp.pop shift
  simp only [e]
  cases h : p.replyQ with
  | nil =>
    simp only [List.map_nil, e2]
    exact { r with inFlight := rfl, replyQ := rfl }
  | cons i q =>
    simp only [List.map_cons]
    have rr : Like { p with reply := some i, replyQ := q }.read { u with reply := some (p.mem i), replyQ := q.map p.mem }.read :=
      like_read { r with reply := rfl, live := fun _ _ => rfl, replyQ := rfl }
    have e3 : ({ u with reply := some (p.mem i), replyQ := q.map p.mem } : Udp).read.inFlight = p.inFlight := e2
    rw [e3]
    exact like_inFlight rr _ _

theorem like_sendDone {p : UdpP} {u : Udp} (r : Like p u) (hm : p.mid = none) (N : Nat) (ok : Bool) : Like (p.sendDone N ok) (u.sendDone N ok) := by
  obtain ⟨rep, fin, mat, rx, oc, dr, hr, hl, rfl⟩ := r.opened
  clear r
  unfold sendDone Udp.sendDone view
  cases h : p.sendOps with
  | nil => constructor <;> simp_all
  | cons o ops =>
    simp only
    cases he : p.exc with
    | some e => constructor <;> simp_all
    | none =>
      have hl := hl he (by rw [hm]; rfl)
      subst hl
      cases ht : p.deadline with
      | inf =>
        simp
        refine like_fail ?_ _ _
        constructor <;> simp_all
      | armed =>
        simp
        cases hd : p.disp with
        | none => constructor <;> simp_all
        | some i =>
          simp only [Option.map_some]
          cases ok with
          | false =>
            simp
            refine like_fail (like_close ?_) _ _
            constructor <;> simp_all
          | true =>
            simp
            apply like_next
            cases hp : p.reply with
            | none =>
              apply like_read
              constructor <;> simp_all
            | some j => constructor <;> simp_all

theorem like_recvBegin {p : UdpP} {u : Udp} (r : Like p u) (hm : p.mid = none) (c : Cfg) (x : Option (List W)) :
    Like (p.recvBegin c x) (u.recvBegin c x) := by
  obtain ⟨rep, fin, mat, rx, oc, dr, hr, hl, rfl⟩ := r.opened
  clear r
  unfold recvBegin Udp.recvBegin view
  cases h : p.recvOps with
  | nil => constructor <;> simp_all
  | cons o ops =>
    simp only
    cases he : p.exc with
    | some e => constructor <;> simp_all
    | none =>
      have hl := hl he (by rw [hm]; rfl)
      subst hl
      cases ht : p.deadline with
      | inf =>
        simp
        refine like_fail ?_ _ _
        constructor <;> simp_all
      | armed =>
        simp
        cases hp : p.reply with
        | none => constructor <;> simp_all
        | some i =>
          simp only [Option.map_some]
          cases x with
          | none => constructor <;> simp_all [Udp.close, close]
          | some ws =>
            simp only
            generalize receiveReply c p.heap (p.mem i) ws = o
            obtain ⟨o, g⟩ := o
            cases o <;> (constructor <;> simp_all [past])

theorem like_recvEnd {p : UdpP} {u : Udp} (r : Like p u) (N : Nat) : Like (p.recvEnd N) (u.recvEnd N) := by
  have hu := r.mid
  have he := r.exc
  cases hm : p.mid with
  | none =>
    rw [hm] at hu
    simpa [recvEnd, Udp.recvEnd, hm, hu] using r
  | some m =>
    rw [hm] at hu
    cases m with
    | failed =>
      simp only [recvEnd, Udp.recvEnd, hm, hu]
      refine like_fail (p := { p with mid := none }) (u := { u with mid := none }) { r with mid := rfl, live := ?_ } _ _
      intro a _
      exact r.live a (by rw [hm]; rfl)
    | invalid e ws =>
      simp only [recvEnd, Udp.recvEnd, hm, hu]
      exact { r with mid := rfl, exc := rfl, live := fun a _ => by simp at a }
    | last =>
      simp only [recvEnd, Udp.recvEnd, hm, hu]
      by_cases h : p.exc.isSome = true
      · have h' : u.exc.isSome = true := by rw [he, h]
        rw [if_pos h, if_pos h']
        refine { r with mid := rfl, flushDone := rfl, live := ?_ }
        intro a
        have a : p.exc = none := a
        simp [a] at h
      · have h' : ¬ u.exc.isSome = true := by rw [he]; exact h
        rw [if_neg h, if_neg h']
        exact like_advance (p := { p with mid := none }) (u := { u with mid := none }) { r with mid := rfl, reply := rfl, live := fun _ _ => rfl } N

theorem like_timeout {p : UdpP} {u : Udp} (r : Like p u) : Like p.timeout u.timeout := by
  unfold timeout Udp.timeout
  rw [r.deadline]
  cases h : p.deadline with
  | armed => exact { like_close r with deadline := rfl }
  | inf => exact r

theorem like_dispatch {p : UdpP} {u : Udp} (r : Like p u) (N : Nat) {i : Nat} (hc : p.cur = some i) :
    Like (p.dispatch N) (match u.dispatch N (p.mem i) with | .ok _ u' => u' | _ => u) := by
  obtain ⟨rep, fin, mat, rx, oc, dr, hr, hl, rfl⟩ := r.opened
  unfold dispatch Udp.dispatch
  rw [hc]
  cases he : p.exc with
  | some e => simpa [view, he] using r
  | none =>
    clear r
    simp only [view, he, Option.isSome_map]
    split
    · constructor <;> simp_all
    · apply like_write
      constructor <;> simp_all

/-- The step of `Udp` that corresponds to a step. -/
def toUdp (p : UdpP) : Act → Option Verif.Act
  | .take => none
  | .fill _ => none
  | .dispatch => p.cur.map fun i => .dispatch (p.mem i)
  | .handler => some .handler
  | .ev e => match e with
    | .recvEnd => if p.held.isSome then none else some (.ev .recvEnd)
    | e => some (.ev e)
  | .giveBack => none

theorem like_act {p : UdpP} {u : Udp} (o : Own p) (r : Like p u) (c : Cfg) (N : Nat) (a : Act) :
    Like (p.act c N a) (match p.toUdp a with | none => u | some b => u.act c N b) := by
  by_cases hc : p.crashed
  · have hu : u.crashed = true := by rw [r.crashed, hc]
    have : p.act c N a = p := by simp [act, hc]
    rw [this]
    split
    · exact r
    · rename_i b _
      cases b <;> simp [Udp.act, Udp.ev, hu] <;> exact r
  · have hu : u.crashed = false := by rw [r.crashed]; simpa using hc
    cases a with
    | take => simpa [act, hc, toUdp] using like_take o r
    | fill f => simpa [act, hc, toUdp] using like_fill o r f
    | giveBack => simpa [act, hc, toUdp] using like_giveBack r
    | handler => simpa [act, hc, toUdp, Udp.act, hu] using like_handler r
    | dispatch =>
      cases hcur : p.cur with
      | none =>
        have : p.dispatch N = p := by unfold dispatch; rw [hcur]; cases p.exc <;> rfl
        simpa [act, hc, toUdp, hcur, this] using r
      | some i =>
        have h := like_dispatch r N hcur
        simp only [act, hc, toUdp, hcur, Udp.act, hu, Option.map_some]
        cases hd : u.dispatch N (p.mem i) <;> rw [hd] at h <;> exact h
    | ev e =>
      have hm := r.mid
      cases e with
      | sendDone ok =>
        cases h : p.mid with
        | none => simpa [act, hc, toUdp, Udp.act, Udp.ev, ev, hu, hm, h] using like_sendDone r h N ok
        | some m => simpa [act, hc, toUdp, Udp.act, Udp.ev, ev, hu, hm, h] using r
      | recvBegin x =>
        cases h : p.mid with
        | none => simpa [act, hc, toUdp, Udp.act, Udp.ev, ev, hu, hm, h] using like_recvBegin r h c x
        | some m => simpa [act, hc, toUdp, Udp.act, Udp.ev, ev, hu, hm, h] using r
      | timeout =>
        cases h : p.mid with
        | none => simpa [act, hc, toUdp, Udp.act, Udp.ev, ev, hu, hm, h] using like_timeout r
        | some m => simpa [act, hc, toUdp, Udp.act, Udp.ev, ev, hu, hm, h] using r
      | recvEnd =>
        cases h2 : p.held with
        | some _ =>
          cases h : p.mid with
          | none => simpa [act, hc, toUdp, h2, ev, h] using r
          | some m => simpa [act, hc, toUdp, h2, ev, h] using r
        | none =>
          cases h : p.mid with
          | none => simpa [act, hc, toUdp, Udp.act, Udp.ev, ev, hu, hm, h, h2] using r
          | some m => simpa [act, hc, toUdp, Udp.act, Udp.ev, ev, hu, hm, h, h2] using like_recvEnd r N

/-- What has been handed over has been sent, in this order and with the same contents, or waits to be. -/
def Kept (p : UdpP) : Prop := p.sent ++ p.dispQ.map p.mem = p.dispatched

/-- And something waits only if a packet is being sent or the limit is reached. -/
def Book (N : Nat) (p : UdpP) : Prop := Kept p ∧ (p.disp = none → p.dispQ = [] ∨ p.inFlight = N)

theorem book_put {N : Nat} {p : UdpP} (h : Book N p) {i : Nat} (b : Buf) (hi : p.dispQ.count i = 0) : Book N (p.put i b) := by
  refine ⟨?_, h.2⟩
  unfold Kept
  have : (p.put i b).dispQ.map (p.put i b).mem = p.dispQ.map p.mem := map_put hi
  rw [this]
  exact h.1

theorem book_next {p : UdpP} (h : Kept p) (N : Nat) : Book N (p.next N) := by
  unfold next
  split
  · rename_i i q e
    split
    · unfold Kept at h
      rw [e] at h
      refine ⟨?_, by simp [write]⟩
      unfold Kept
      simpa [write] using h
    · rename_i hn
      refine ⟨h, fun _ => .inr ?_⟩
      exact Decidable.not_not.mp hn
  · rename_i e
    exact ⟨h, fun _ => .inl e⟩

theorem book_resume {p : UdpP} (h : Kept p) (N : Nat) : Book N (p.resume N) := by
  have key : ∀ q : UdpP, Book N q → Book N (if q.disp.isNone && q.reply.isNone then { q with deadline := .armed, flushDone := true } else q) := by
    intro q h
    split <;> exact h
  unfold resume
  apply key
  split
  · exact book_next h N
  · rename_i hd
    refine ⟨h, fun e => ?_⟩
    rw [e] at hd
    simp at hd

theorem book_act {N : Nat} {p : UdpP} (o : Own p) (h : Book N p) (c : Cfg) (a : Act) : Book N (p.act c N a) := by
  unfold act
  split
  · exact h
  · cases a with
    | take =>
      have hs : Book N p.stock := by
        unfold stock
        split <;> exact h
      have os := own_stock o
      show Book N p.take
      unfold take
      split
      · exact h
      · split
        · exact hs
        · rename_i i is e
          have h1 := os.one i
          simp only [owns, e, List.count_cons, beq_self_eq_true, if_true] at h1
          refine book_put (p := { p.stock with pool := is, cur := some i }) hs _ ?_
          show p.stock.dispQ.count i = 0
          omega
    | fill f =>
      show Book N (p.fill f)
      unfold fill
      split
      · exact h
      · rename_i i e
        have h1 := o.one i
        simp only [owns, e, Option.toList_some, List.count_cons, List.count_nil, beq_self_eq_true, if_true] at h1
        exact book_put h _ (by omega)
    | dispatch =>
      show Book N (p.dispatch N)
      unfold dispatch
      split
      · exact h
      · exact h
      · rename_i i _ _
        simp only
        obtain ⟨h1, h2⟩ := h
        unfold Kept at h1
        split
        · rename_i hd
          refine ⟨by simp [Kept, ← h1], fun e => .inr ?_⟩
          have e : p.disp = none := e
          simpa [e] using hd
        · rename_i hd
          have hq : p.dispQ = [] := by
            cases e : p.disp with
            | some _ => simp [e] at hd
            | none =>
              rcases h2 e with h3 | h3
              · exact h3
              · simp [h3] at hd
          refine ⟨?_, by simp [write]⟩
          simp [Kept, write, ← h1, hq]
    | handler => exact ⟨rfl, fun _ => .inl rfl⟩
    | giveBack =>
      show Book N p.giveBack
      unfold giveBack
      split <;> exact h
    | ev e =>
      show Book N (p.ev c N e)
      unfold ev
      split
      · unfold sendDone
        split
        · exact h
        · simp only
          split
          · exact h
          · split
            · exact h
            · split
              · exact h
              · split
                · exact h
                · apply book_next
                  split
                  · exact h.1
                  · exact h.1
      · unfold recvBegin
        split
        · exact h
        · simp only
          repeat' split
          all_goals exact h
      · unfold timeout
        split <;> exact h
      · split
        · exact h
        · unfold recvEnd
          split
          · exact h
          · exact h
          · exact h
          · simp only
            split
            · exact h
            · apply book_resume
              unfold shift
              split
              · exact h.1
              · exact h.1
      · exact h

end UdpP
end Verif
