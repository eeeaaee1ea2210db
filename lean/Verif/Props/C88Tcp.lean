import Verif.Props.C88
import Verif.Props.C18
import Verif.Lemmas.PoolTcpSim
/-!
# C88 for TCP clients

Chunks of `n` packets: `read_callback` validates the packets of a chunk one after the other and gives each of them back to the pool
before it looks at the next one, while `mReplyBuffers.first` still points to all of them and the user thread fills new packets.
-/

set_option autoImplicit false
set_option linter.unusedSimpArgs false

namespace Verif

open Spec

namespace TcpP

/-- The steps of `Tcp` that correspond to a schedule. -/
def acts (c : Cfg) (n N : Nat) : TcpP → List Act → List TAct
  | _, [] => []
  | p, a :: as => (p.toTcp c a).toList ++ acts c n N (p.act c n N a) as

theorem acts_append (c : Cfg) (n N : Nat) (as bs : List Act) : ∀ p : TcpP,
    acts c n N p (as ++ bs) = acts c n N p as ++ acts c n N (as.foldl (act c n N) p) bs := by
  induction as with
  | nil => intro p; rfl
  | cons a as ih => intro p; simp only [List.cons_append, acts, ih, List.append_assoc, List.foldl_cons]

theorem sim (c : Cfg) (n N : Nat) (as : List Act) : ∀ (p : TcpP) (u : Tcp), Own p → Sim c p u → Kept p →
    Own (as.foldl (act c n N) p) ∧ Sim c (as.foldl (act c n N) p) ((acts c n N p as).foldl (Tcp.act c n N) u) ∧ Kept (as.foldl (act c n N) p) := by
  induction as with
  | nil => exact fun p u h1 h2 h3 => ⟨h1, h2, h3⟩
  | cons a as ih =>
    intro p u h1 h2 h3
    have l := sim_step h1 h2 n N a
    simp only [List.foldl_cons, acts, List.foldl_append]
    have e : (p.toTcp c a).toList.foldl (Tcp.act c n N) u = (match p.toTcp c a with | none => u | some b => u.act c n N b) := by
      cases p.toTcp c a <;> rfl
    rw [e]
    exact ih _ _ (own_act h1 c n N a) l (kept_act h1 h3 n N a)

theorem reach (c : Cfg) (n N : Nat) (as : List Act) :
    Own (run c n N as) ∧ Sim c (run c n N as) (Tcp.sched c n N (acts c n N init as)) ∧ Kept (run c n N as) :=
  sim c n N as init Tcp.init own_init (.inr like_init) rfl

@[simp] theorem write_crashed (n : Nat) (p : TcpP) : (p.write n).crashed = p.crashed := rfl
@[simp] theorem read_crashed (p : TcpP) : p.read.crashed = p.crashed := rfl
@[simp] theorem close_crashed (p : TcpP) : p.close.crashed = p.crashed := rfl
@[simp] theorem fail_crashed (p : TcpP) (e : Exc) : (p.fail e).crashed = p.crashed := rfl
@[simp] theorem stock_crashed (p : TcpP) : p.stock.crashed = p.crashed := by unfold stock; split <;> rfl
@[simp] theorem take_crashed (p : TcpP) : p.take.crashed = p.crashed := by
  unfold take; split
  · rfl
  · split
    · exact stock_crashed p
    · exact stock_crashed p
@[simp] theorem fill_crashed (f : Buf → Buf) (p : TcpP) : (p.fill f).crashed = p.crashed := by unfold fill; split <;> rfl
@[simp] theorem handOver_crashed (p : TcpP) : p.handOver.crashed = p.crashed := by unfold handOver; split <;> rfl
@[simp] theorem sendDone_crashed (n N : Nat) (ok : Bool) (p : TcpP) : (p.sendDone n N ok).crashed = p.crashed := by
  unfold sendDone
  split
  · rfl
  · simp only [apply_ite TcpP.crashed, fail_crashed, close_crashed, handOver_crashed, write_crashed, ite_self]
@[simp] theorem recvHdr_crashed (r : Option Nat) (p : TcpP) : (p.recvHdr r).crashed = p.crashed := by
  unfold recvHdr
  split
  · rfl
  · cases r <;> simp only [apply_ite TcpP.crashed, fail_crashed, ite_self]
@[simp] theorem recvBody_crashed (r : Option (List W)) (p : TcpP) : (p.recvBody r).crashed = p.crashed := by
  unfold recvBody; repeat' (first | rfl | split)
@[simp] theorem giveBack_crashed (p : TcpP) : p.giveBack.crashed = p.crashed := by unfold giveBack; split <;> rfl
@[simp] theorem pop_crashed (p : TcpP) : p.pop.crashed = p.crashed := by
  unfold pop
  simp only
  split <;> rfl
@[simp] theorem advance_crashed (n N : Nat) (p : TcpP) : (p.advance n N).crashed = p.crashed := by
  unfold advance
  simp only
  split <;> split <;> simp
@[simp] theorem recvEnd_crashed (n N : Nat) (p : TcpP) : (p.recvEnd n N).crashed = p.crashed := by
  unfold recvEnd; split <;> simp
@[simp] theorem timeout_crashed (p : TcpP) : p.timeout.crashed = p.crashed := by unfold timeout; split <;> rfl
@[simp] theorem dispatch_crashed (n N : Nat) (k : Bool) (p : TcpP) : (p.dispatch n N k).crashed = p.crashed := by
  unfold dispatch
  repeat' (first | rfl | split)
  all_goals (simp; try split <;> rfl)
@[simp] theorem flushStart_crashed (n : Nat) (p : TcpP) : (p.flushStart n).crashed = p.crashed := by
  unfold flushStart; simp only; split <;> rfl
@[simp] theorem flushEnd_crashed (p : TcpP) : p.flushEnd.crashed = p.crashed := by
  unfold flushEnd; repeat' (first | rfl | split)

/-- Behaviour becomes undefined in a validation, or when the handler empties the vector over which `read_callback` loops. -/
theorem act_crash {c : Cfg} {n N : Nat} {p : TcpP} {a : Act} (hc : p.crashed = false) (h : (p.act c n N a).crashed = true) :
    (∃ i is ws b, p.mid = some (.check (i :: is) ws b) ∧ p.held = none ∧ (clientValidate c p.heap (p.mem i)).1 = .ub) ∨
    (a = .handler ∧ p.pc = .thrown ∧ ∃ i is ws b, p.mid = some (.check (i :: is) ws b)) := by
  cases a with
  | take => simp [act, hc] at h
  | fill f => simp [act, hc] at h
  | dispatch k => simp only [act, hc, Bool.false_eq_true, if_false] at h; split at h <;> simp [hc] at h
  | flushStart => simp only [act, hc, Bool.false_eq_true, if_false] at h; split at h <;> simp [hc] at h
  | flushEnd => simp only [act, hc, Bool.false_eq_true, if_false] at h; split at h <;> simp [hc] at h
  | handler =>
    simp only [act, hc, Bool.false_eq_true, if_false] at h
    split at h
    · rename_i hi
      right
      refine ⟨rfl, hi, ?_⟩
      unfold handler at h
      split at h
      · exact ⟨_, _, _, _, by assumption⟩
      · simp [hc] at h
    · simp [hc] at h
  | net e =>
    simp only [act, hc, Bool.false_eq_true, if_false] at h
    unfold net at h
    split at h
    case h_5 =>
      left
      unfold valid at h
      split at h
      · rename_i i is ws b e1 e2
        refine ⟨i, is, ws, b, by assumption, e2, ?_⟩
        split at h
        · simp [hc] at h
        · simp [hc] at h
        · rename_i hh; rw [hh]
      · simp [hc] at h
    all_goals first
      | (simp [hc] at h; done)
      | (split at h <;> simp [hc] at h)

end TcpP

/-- In every schedule: the pool, the user thread, the queues and the calls of the transport hold different objects. The packets in
`mReplyBuffers.first` count until they have been validated or there is an exception. -/
theorem C88_tcp_apart (c : Cfg) (n N : Nat) (as : List TcpP.Act) :
    let p := TcpP.run c n N as
    Apart [p.pool, p.cur.toList, p.disp, p.dispQ, p.replyQ.flatten, p.held.toList,
      if p.exc = none then (match p.mid with
        | some (.check todo _ _) => todo
        | some (.invalid _ _ _) => []
        | some .notify => []
        | _ => p.reply) else []] := by
  intro p
  have h := (TcpP.reach c n N as).1
  apply apart_of
  intro i
  have h1 : p.owns i ≤ 1 := h.one i
  have e : (if p.exc = none then (match p.mid with
        | some (.check todo _ _) => todo
        | some (.invalid _ _ _) => []
        | some .notify => []
        | _ => p.reply) else []) = p.live := by
    unfold TcpP.live
    cases p.exc with
    | some x => simp
    | none =>
      rw [if_pos rfl]
      cases p.mid with
      | none => rfl
      | some m => cases m <;> rfl
  rw [e]
  simp only [TcpP.owns] at h1
  simp only [List.flatten_cons, List.flatten_nil, List.count_append, List.count_nil]
  omega

/-- Packets are sent in the order and with the contents they had when they were handed over. -/
theorem C88_tcp_sent (c : Cfg) (n N : Nat) (as : List TcpP.Act) :
    SentAsGiven (TcpP.run c n N as).dispatched (TcpP.run c n N as).sent.flatten :=
  ⟨_, (TcpP.reach c n N as).2.2.symm⟩

/-- The client with the pool does what the client of `Tcp` does, in which packets are values. In the middle of a chunk the memory of
the user and the list of validated replies are ahead of those of `Tcp`, which validates a chunk in one step. -/
theorem C88_tcp_values (c : Cfg) (n N : Nat) (as : List TcpP.Act) :
    let p := TcpP.run c n N as
    let u := Tcp.sched c n N (TcpP.acts c n N TcpP.init as)
    p.crashed = false →
      u.exc = p.exc ∧ u.flushDone = p.flushDone ∧ u.sent = p.sent ∧ u.dispatched = p.dispatched ∧ u.inFlight = p.inFlight ∧ u.pc = p.pc ∧
      u.crashed = false ∧ u.dispQ = p.dispQ.map p.mem ∧ u.replyQ = p.replyQ.map (List.map p.mem) ∧ u.disp = p.disp.map p.mem ∧
      ((∀ i is ws b, p.mid ≠ some (.check (i :: is) ws b)) → u.heap = p.heap ∧ u.log = p.log) := by
  intro p u hc
  rcases (TcpP.reach c n N as).2.1 with h | h
  · exact absurd (h.symm.trans hc) (by simp)
  · refine ⟨h.exc, h.flushDone, h.sent, h.dispatched, h.inFlight, h.pc, h.crashed, h.dispQ, h.replyQ, h.disp, fun hm => ?_⟩
    have q : TcpP.Phase c p.mid p.heap p.log p.mem u.mid u.heap u.log u.reply := h.phase
    cases hp : p.mid with
    | none => rw [hp] at q; exact q.2
    | some m =>
      rw [hp] at q
      cases m with
      | check todo ws b =>
        cases todo with
        | nil => exact q.2
        | cons i is => exact absurd hp (hm i is ws b)
      | _ => exact q.2

/-- Behaviour is defined as long as the exception handler does not run while the network thread is busy, if no reply to the packets
leads validation into undefined behaviour. -/
theorem C88_tcp_defined (c : Cfg) (n N : Nat) (hp : TPar n N) (as : List TcpP.Act)
    (hb : ∀ b k, TAct.dispatch b k ∈ TcpP.acts c n N TcpP.init as → NoUB c b)
    (hd : (Tcp.sched c n N (TcpP.acts c n N TcpP.init as)).dirty = false)
    (hs : (Tcp.sched c n N (TcpP.acts c n N TcpP.init as)).stale = false) : (TcpP.run c n N as).crashed = false := by
  generalize hl : as.length = l
  induction l generalizing as with
  | zero => rw [List.eq_nil_of_length_eq_zero hl]; rfl
  | succ l ih =>
    obtain ⟨as, a, rfl⟩ : ∃ bs a, as = bs ++ [a] := by
      rcases List.eq_nil_or_concat as with h | ⟨bs, a, h⟩
      · rw [h] at hl; simp at hl
      · exact ⟨bs, a, by simpa using h⟩
    have e := TcpP.acts_append c n N as [a] TcpP.init
    rw [e] at hb hd hs
    have es : Tcp.sched c n N (TcpP.acts c n N TcpP.init as ++ TcpP.acts c n N (as.foldl (TcpP.act c n N) TcpP.init) [a]) =
        (TcpP.acts c n N (as.foldl (TcpP.act c n N) TcpP.init) [a]).foldl (Tcp.act c n N) (Tcp.sched c n N (TcpP.acts c n N TcpP.init as)) := by
      simp only [Tcp.sched, List.foldl_append]
    have hf := tfold_flags _ ⟨es ▸ hd, es ▸ hs⟩
    have hb' : ∀ b k, TAct.dispatch b k ∈ TcpP.acts c n N TcpP.init as → NoUB c b := fun b k h => hb b k (List.mem_append_left _ h)
    have h0 := ih as hb' hf.1 hf.2 (by simpa using hl)
    have hall := tsched_inv hp _ hb' hf.1 hf.2
    have hr : TcpP.run c n N (as ++ [a]) = (TcpP.run c n N as).act c n N a := by
      simp [TcpP.run, List.foldl_append]
    rcases (TcpP.reach c n N as).2.1 with h | h
    · exact absurd (h.symm.trans h0) (by simp)
    have q := h.phase
    rw [hr]
    cases hcr : ((TcpP.run c n N as).act c n N a).crashed with
    | false => rfl
    | true =>
      exfalso
      rcases TcpP.act_crash h0 hcr with ⟨i, is, ws, b, h1, h2, h3⟩ | ⟨rfl, h1, i, is, ws, b, h2⟩
      · rw [h1] at q
        obtain ⟨q1, q2, done, q3, q4⟩ := q
        have k1 := (hall.ev hp (.recvBody (some b))).crash
        have k2 : (Tcp.sched c n N (TcpP.acts c n N TcpP.init as)).ev c n N (.recvBody (some b)) =
            (Tcp.sched c n N (TcpP.acts c n N TcpP.init as)).recvBody c (some b) := by
          simp [Tcp.ev, hall.crash, q1]
        rw [k2] at k1
        unfold Tcp.recvBody at k1
        rw [q1] at k1
        simp only at k1
        have k3 : (receiveChunk c (Tcp.sched c n N (TcpP.acts c n N TcpP.init as)).heap (Tcp.sched c n N (TcpP.acts c n N TcpP.init as)).reply b).1 = .ub := by
          rw [q4]
          simp only [List.map_cons, chunkValidate]
          cases hv : clientValidate c (TcpP.run c n N as).heap ((TcpP.run c n N as).mem i) with
          | mk o hh =>
            rw [hv] at h3
            simp only at h3
            subst h3
            rfl
        rw [if_neg (fun x => x.elim (fun y => y rfl) q2)] at k1
        revert k1 k3
        generalize receiveChunk c _ _ b = r
        obtain ⟨o, hh, l⟩ := r
        rintro k1 rfl
        simp at k1
      · rw [h2] at q
        have ea : TcpP.acts c n N (as.foldl (TcpP.act c n N) TcpP.init) [TcpP.Act.handler] = [TAct.handler] := rfl
        rw [ea] at hd
        simp only [Tcp.sched, List.foldl_append, List.foldl_cons, List.foldl_nil] at hd
        have hu : (Tcp.sched c n N (TcpP.acts c n N TcpP.init as)).act c n N .handler = (Tcp.sched c n N (TcpP.acts c n N TcpP.init as)).handler := by
          simp [Tcp.act, hall.crash, h.pc, h1]
        have hd' : ((Tcp.sched c n N (TcpP.acts c n N TcpP.init as)).act c n N .handler).dirty = false := hd
        rw [hu] at hd'
        simp [Tcp.handler, q.1] at hd'

/-- A new packet begins empty, in an object that is nowhere else. -/
theorem C88_tcp_fresh (c : Cfg) (n N : Nat) (as : List TcpP.Act) (hc : (TcpP.run c n N as).crashed = false) (hn : (TcpP.run c n N as).cur = none) :
    let p := TcpP.run c n N (as ++ [.take])
    ∃ i, p.cur = some i ∧ p.mem i = Buf.empty ∧ i ∉ p.pool ++ p.disp ++ p.dispQ ++ p.replyQ.flatten ++ p.held.toList := by
  intro p
  have h := (TcpP.reach c n N (as ++ [.take])).1
  have e : p = (TcpP.run c n N as).take := by
    show (as ++ [TcpP.Act.take]).foldl (TcpP.act c n N) TcpP.init = _
    rw [List.foldl_append]
    show TcpP.act c n N (TcpP.run c n N as) .take = _
    simp [TcpP.act, hc]
  obtain ⟨i, is, hi⟩ : ∃ i is, (TcpP.run c n N as).stock.pool = i :: is := by
    unfold TcpP.stock
    split
    · exact ⟨_, _, rfl⟩
    · rename_i q
      cases hp : (TcpP.run c n N as).pool with
      | nil => exact absurd hp q
      | cons i is => exact ⟨i, is, rfl⟩
  have ec : p.cur = some i := by rw [e]; simp [TcpP.take, hn, hi, TcpP.put]
  refine ⟨i, ec, ?_, ?_⟩
  · rw [e]; simp [TcpP.take, hn, hi, TcpP.put]
  · have h1 : p.owns i ≤ 1 := h.one i
    simp only [TcpP.owns, ec, Option.toList_some, List.count_cons, List.count_nil, beq_self_eq_true, if_true] at h1
    intro hm
    have := List.count_pos_iff.mpr hm
    simp only [List.count_append] at this
    omega

/-- After an exception no object of an earlier packet is left. (The entries of `mReplyQueue` stay, without packets; C21.) -/
theorem C88_tcp_dropped (c : Cfg) (n N : Nat) (as : List TcpP.Act) (hc : (TcpP.run c n N as).crashed = false) (hp : (TcpP.run c n N as).pc = .thrown) :
    let p := TcpP.run c n N (as ++ [.handler])
    p.crashed = false → p.cur = none ∧ p.disp = [] ∧ p.reply = [] ∧ p.dispQ = [] ∧ p.replyQ.flatten = [] ∧ p.pool = [] ∧ p.exc = none := by
  intro p hx
  have e : p = (TcpP.run c n N as).handler := by
    show (as ++ [TcpP.Act.handler]).foldl (TcpP.act c n N) TcpP.init = _
    rw [List.foldl_append]
    show TcpP.act c n N (TcpP.run c n N as) .handler = _
    simp [TcpP.act, hc, hp]
  rcases TcpP.handler_eq (TcpP.run c n N as) with h | ⟨h, _⟩
  · rw [e, h] at hx; simp at hx
  · rw [e, h]
    refine ⟨rfl, rfl, rfl, rfl, ?_, rfl, rfl⟩
    show ((TcpP.run c n N as).replyQ.map fun _ => ([] : List Nat)).flatten = []
    simp

/-! ### Not vacuous -/

section
private def cfg : Cfg := ⟨.v2, none, 1400, 1400, true⟩
private def pkt (w : W) : Buf → Buf := fun _ =>
  ⟨[0x200000F0, 0x2000010F, w], [⟨.pkt w.toNat, 1⟩, ⟨.hdr w.toNat 0, 1⟩, ⟨.data w.toNat 0, 1⟩], [w.toNat]⟩
private def give (w : W) : List TcpP.Act := [.take, .fill (pkt w), .dispatch true]
private def rep (i : W) : List W := [0x200000F0, 0x20000100 + i, 7]

/-- Three packets in one chunk; the first two have been validated and given back. -/
private def two : List TcpP.Act :=
  give 1 ++ give 2 ++ give 3 ++ [.net (.sendDone true), .net (.recvHdr (some 9)), .net (.recvBody (some (rep 0 ++ rep 0 ++ rep 0))),
    .net .valid, .net .giveBack, .net .valid, .net .giveBack]

example : let p := TcpP.run cfg 3 12 two
    p.exc = none ∧ p.reply = [0, 1, 2] ∧ p.pool = [3, 4, 5, 6, 7, 8, 9, 0, 1] ∧ p.log.length = 2 ∧ p.sent.length = 1 ∧ p.crashed = false := by
  decide +kernel

/-- The user thread takes all of the pool, in between, and fills the first two objects again; then the third packet is validated. -/
private def again : List TcpP.Act :=
  two ++ (List.range 9).flatMap (fun i => give (BitVec.ofNat 32 (i + 4))) ++ [.net .valid, .net .giveBack, .net .recvEnd]

example : let p := TcpP.run cfg 3 12 again
    p.exc = none ∧ (p.mem 0).send = [0x200000F0, 0x2000010F, 11] ∧ p.log.map (·.buf.send) = [[0x200000F0, 0x2000010F, 1], [0x200000F0, 0x2000010F, 2], [0x200000F0, 0x2000010F, 3]] ∧
      p.disp = [3, 4, 5] ∧ p.dispQ = [6, 7, 8, 9, 0, 1] ∧ p.pool = [2] ∧ p.crashed = false := by
  decide +kernel

/-- The second reply has an error code: the handler drops everything, the next packet is in a new object. -/
example : let p := TcpP.run cfg 3 12 (give 1 ++ give 2 ++ give 3 ++ [.net (.sendDone true), .net (.recvHdr (some 9)),
      .net (.recvBody (some (rep 0 ++ rep 4 ++ rep 0))), .net .valid, .net .giveBack, .net .valid, .net .giveBack, .net .recvEnd, .net .recvEnd,
      .flushStart, .flushEnd, .handler, .take])
    p.exc = none ∧ p.reply = [] ∧ p.cur = some 10 ∧ p.pool.length = 9 ∧ p.log.length = 2 ∧ p.crashed = false := by
  decide +kernel

/-- The hypotheses of `C88_tcp_defined`. -/
private def plain : List TcpP.Act :=
  [.take, .fill (fun _ => readPkt .v2), .dispatch true, .flushStart, .net (.sendDone true), .net (.recvHdr (some 3))]

example : (∀ b k, TAct.dispatch b k ∈ TcpP.acts (demoCfg .v2) 1 16 TcpP.init plain → NoUB (demoCfg .v2) b) ∧
    (Tcp.sched (demoCfg .v2) 1 16 (TcpP.acts (demoCfg .v2) 1 16 TcpP.init plain)).dirty = false ∧
    (Tcp.sched (demoCfg .v2) 1 16 (TcpP.acts (demoCfg .v2) 1 16 TcpP.init plain)).stale = false ∧
    (TcpP.run (demoCfg .v2) 1 16 plain).mid = some (.body 3) := by
  refine ⟨fun b k h => ?_, by decide +kernel, by decide +kernel, by decide +kernel⟩
  have e : TcpP.acts (demoCfg .v2) 1 16 TcpP.init plain = [.dispatch (readPkt .v2) true, .flushStart, .ev (.sendDone true), .ev (.recvHdr (some 3))] := by
    rfl
  rw [e] at h
  simp at h
  rw [h.1]
  exact readPkt_noUB .v2
end

end Verif
