import Verif.Lemmas.UdpLive
import Verif.Lemmas.UdpLink
import Verif.Props.C07
import Verif.Props.C16
import Verif.Props.C17
/-!
# C18, C19, C20: the UDP client

Schedules: any sequence of `implementDispatch`, `dispatchExceptionHandler` and steps of the network thread (completions of
sends and receives with any result, timeouts). `dirty` is set when the exception handler runs although a callback is in
progress or an operation is pending. The properties are claimed for every schedule; that is false, see `C18_violated_*`,
`C19_violated`, `C20_violated_stale`. What is proved (`_partial`) is the full claim for all schedules in which the handler
does not run at such a moment.

At the end: programs of client calls over the UDP client behave as over the generic transport of `Verif.Model.Link`, which
carries C15, C16 and C17 over to it.
-/

set_option autoImplicit false

namespace Verif
open Spec

/-- `getMaxNumberOfBuffers`, `/repo/uhal/uhal/include/uhal/ProtocolIPbus.hpp` 161-164 and 290-293. -/
def maxPackets : Ver → Nat
  | .v1 => 1
  | .v2 => 16

theorem maxPackets_pos (v : Ver) : 0 < maxPackets v := by cases v <;> decide
theorem maxPackets_lt (v : Ver) : maxPackets v < 2 ^ 32 := by cases v <;> decide

/-- Packets a client program hands to its transport never make `validate` look outside them. -/
theorem client_noUB {τ : Type} (c : Cfg) (T : Transport τ) (hw : WF c) (hcap : CapOK c) (hr : c.ver = .v2 → Roomy c) (hT : T.Total)
    (ops : List Op) (hops : ∀ op ∈ ops, op.ok c) (t : τ) (rs : List Res) (s : St τ)
    (hrun : runOps c T ops (St.init t) = some (rs, s)) (b : Buf) (hb : b ∈ s.hist) : NoUB c b := by
  intro h ws
  rw [receive_out]
  exact C11_no_ub c T hw hcap hr hT ops hops t rs s hrun b hb _

theorem zip_fst {α β : Type} (a : List α) (x : List β) : (a.zip x).map Prod.fst = a.take x.length := by
  induction a generalizing x with
  | nil => simp
  | cons y a ih =>
    cases x with
    | nil => simp
    | cons z x => simp [ih]

section
variable {c : Cfg} {N : Nat} (h0 : 0 < N) (hN : N < 2 ^ 32) (as : List Act) (hb : ∀ b, Act.dispatch b ∈ as → NoUB c b)
variable (hd : (Udp.sched c N as).dirty = false)
include h0 hN hb hd

/-- C18. Packets are sent at most once and in the order of dispatch; the k-th datagram received is scattered into the
slots of the k-th packet sent; each packet dispatched is in exactly one place: finished, being received, waiting for its
reply, being sent, waiting to be sent (in this order). No null pointer is dereferenced. -/
theorem C18_order_partial : ∃ u, u = Udp.sched c N as ∧ u.crashed = false ∧ u.sent <+: u.dispatched ∧
    u.matched.map (fun x => (x.buf, x.reply)) = u.sent.zip u.rx ∧ u.rx.length ≤ u.sent.length ∧
    u.dispatched = u.finished ++ u.reply.toList ++ u.replyQ ++ u.disp.toList ++ u.dispQ := by
  have h := sched_inv h0 hN as hb hd
  refine ⟨_, rfl, h.crash, ?_, h.inv.mat, ?_, ?_⟩
  · rw [h.inv.disp, h.inv.sent]
    simp only [← List.append_assoc]
    exact List.prefix_append _ _
  · have := h.inv.rxl
    rw [h.inv.sent]; simp only [List.length_append]; omega
  · rw [h.inv.disp]; simp only [List.append_assoc]

/-- C18. A packet counts as finished only after its reply was accepted. -/
theorem C18_finished_partial : ∃ u, u = Udp.sched c N as ∧ u.finished <+: u.sent ∧ (u.matched.take u.finished.length).map Rx.buf = u.finished ∧
    ∀ x ∈ u.matched.take u.finished.length, x.out = .ok := by
  have h := sched_inv h0 hN as hb hd
  generalize Udp.sched c N as = u at h
  refine ⟨_, rfl, ?_, ?_, h.ok.fin⟩
  · rw [h.inv.sent]; exact List.prefix_append _ _
  · have hlen : u.finished.length ≤ u.rx.length := by rw [← h.inv.matched_length]; exact h.ok.len
    have hbuf : u.matched.map Rx.buf = (u.sent.zip u.rx).map Prod.fst := by
      rw [← h.inv.mat, List.map_map]; rfl
    rw [List.map_take, hbuf, zip_fst, List.take_take, Nat.min_eq_left hlen, h.inv.sent, List.take_left]

/-- C19. Never more than `N` packets have been sent whose replies have not been processed. -/
theorem C19_limit_partial : (Udp.sched c N as).sent.length - (Udp.sched c N as).finished.length ≤ N := by
  have h := (sched_inv h0 hN as hb hd).inv
  generalize Udp.sched c N as = u at h
  have h1 := h.fl
  have h2 := h.lim
  rw [h.sent]
  simp only [List.length_append]
  omega

/-- C20. If `Flush` returns, every packet dispatched has been sent, and has received the reply in its place, which was
accepted. -/
theorem C20_complete_partial (u' : Udp) (hf : (Udp.sched c N as).flush = .ok () u') : u' = Udp.sched c N as ∧ u'.exc = none ∧
    u'.sent = u'.dispatched ∧ u'.finished = u'.dispatched ∧ u'.rx.length = u'.dispatched.length ∧
    u'.matched.map (fun x => (x.buf, x.reply)) = u'.dispatched.zip u'.rx ∧ ∀ x ∈ u'.matched, x.out = .ok := by
  have hA := sched_inv h0 hN as hb hd
  generalize Udp.sched c N as = u at hA hf
  have h := hA.inv
  unfold Udp.flush at hf
  split at hf
  · rename_i hfd
    cases he : u.exc with
    | some e => rw [he] at hf; cases hf
    | none =>
      rw [he] at hf
      have hu : u = u' := by injection hf
      subst hu
      obtain ⟨h1, h2⟩ := (h.flush he).1 hfd
      have h3 := h.rq h2
      have h4 : u.dispQ = [] := by
        cases hq : u.dispQ with
        | nil => rfl
        | cons x y =>
          have h5 := h.queue (by simp [hq]) h1
          have h6 := h.fl
          rw [h1, h2, h3] at h6
          simp at h6; omega
      have h7 := h.rops' he
      have hm : u.mid = none := by
        cases hm : u.mid with
        | none => rfl
        | some m => rw [hm, h2] at h7; simp at h7
      have h8 := h.rxl' he (.inl hm)
      have hd : u.dispatched = u.finished := by rw [h.disp, h1, h2, h3, h4]; simp
      have hs : u.sent = u.finished := by rw [h.sent, h1, h2, h3]; simp
      refine ⟨rfl, he, by rw [hs, hd], hd.symm, by rw [hd, h8], by rw [h.mat, hs, hd], ?_⟩
      have := hA.ok.fin
      rwa [List.take_of_length_le (by rw [h.matched_length, h8]; exact Nat.le_refl _)] at this
  · cases hf

/-- C20. No lost wake-up: if nothing is outstanding and there was no error, `Flush` returns; after an error it throws, as soon
as the callback that found it has finished. -/
theorem C20_wakes_partial : ∃ u, u = Udp.sched c N as ∧ (u.exc = none → u.finished = u.dispatched → u.flush = .ok () u) ∧
    ∀ e, u.exc = some e → u.mid = none → u.flush = .exc e u := by
  have h := (sched_inv h0 hN as hb hd).inv
  generalize Udp.sched c N as = u at h
  refine ⟨_, rfl, ?_, ?_⟩
  · intro he hfin
    have hx : u.reply.toList ++ (u.replyQ ++ (u.disp.toList ++ u.dispQ)) = [] := by
      have := h.disp
      rw [← hfin] at this
      exact List.self_eq_append_right.1 this
    simp only [List.append_eq_nil_iff] at hx
    have h1 : u.disp = none := by cases hd : u.disp <;> simp_all
    have h2 : u.reply = none := by cases hd : u.reply <;> simp_all
    simp [Udp.flush, he, (h.flush he).2 ⟨h1, h2⟩]
  · intro e he hm
    have := h.wake (by simp [he])
    rw [hm] at this
    simp only [reduceCtorEq, or_false] at this
    simp [Udp.flush, this, he]

/-- C20. While `Flush` waits, the network thread is in a callback or an operation is pending; if moreover the deadline has
passed, every pending operation has been aborted by closing the socket. -/
theorem C20_pending_partial : ∃ u, u = Udp.sched c N as ∧ (u.flushDone = false →
    (u.mid ≠ none ∨ u.sendOps ≠ [] ∨ u.recvOps ≠ []) ∧
    (u.deadline = .inf → u.exc = none → (∀ x ∈ u.sendOps, x = true) ∧ ∀ x ∈ u.recvOps, x = true)) := by
  have h := (sched_inv h0 hN as hb hd).inv
  generalize Udp.sched c N as = u at h
  refine ⟨_, rfl, ?_⟩
  intro hf
  refine ⟨?_, fun h1 h2 => h.dl h2 h1⟩
  cases he : u.exc with
  | some e =>
    rcases h.wake (by simp [he]) with h | h
    · rw [hf] at h; cases h
    · left; rw [h]; simp
  | none =>
    have h1 : ¬ (u.disp = none ∧ u.reply = none) := fun hx => by rw [(h.flush he).2 hx] at hf; cases hf
    have h2 := h.sops' he
    have h3 := h.rops' he
    cases hdd : u.disp with
    | some b =>
      right; left
      rw [hdd] at h2
      intro hx; rw [hx] at h2; simp at h2
    | none =>
      cases hr : u.reply with
      | none => exact absurd ⟨hdd, hr⟩ h1
      | some b =>
        rw [hr] at h3
        cases hm : u.mid with
        | some m => left; simp
        | none =>
          right; right
          intro hx; rw [hx, hm] at h3; simp at h3

/-- C20. `Flush` cannot wait forever: while it waits, the network thread can only take `work` steps. (Steps that do nothing,
such as the completion of an operation that does not exist, are not counted: `enabled`.) -/
theorem C20_terminates_partial (es : List Ev) (hes : ∀ k (hk : k < es.length),
      ((es.take k).foldl (Udp.ev c N) (Udp.sched c N as)).flushDone = false ∧
      ((es.take k).foldl (Udp.ev c N) (Udp.sched c N as)).enabled es[k] = true)
    (hf : (es.foldl (Udp.ev c N) (Udp.sched c N as)).flushDone = false) :
    es.length + (es.foldl (Udp.ev c N) (Udp.sched c N as)).work ≤ (Udp.sched c N as).work := by
  have hA := sched_inv h0 hN as hb hd
  generalize Udp.sched c N as = u at *
  induction es generalizing u with
  | nil => simp
  | cons e es ih =>
    have hen := (hes 0 (by simp)).2
    simp only [List.take_zero, List.foldl_nil, List.getElem_cons_zero] at hen
    have hA' : UAll c N (u.ev c N e) :=
      hA.act h0 hN (.ev e) (fun b h => by cases h) (by simp only [Udp.act, ev_dirty]; exact hd)
    have hfd : (u.ev c N e).flushDone = false := by
      cases es with
      | nil => exact hf
      | cons e' es => exact (hes 1 (by simp)).1
    rcases work_ev h0 hN hA e hen with hw | hw
    · have := ih (u.ev c N e) (by rw [ev_dirty]; exact hd) (fun k hk => by
          have := hes (k + 1) (by simpa using hk)
          simpa using this) hf hA'
      simp only [List.length_cons, List.foldl_cons]
      omega
    · rw [hfd] at hw; cases hw

/-- C20. Once `Flush` can return or throw, no callback changes that. -/
theorem C20_stable_partial (es : List Ev) (hf : (Udp.sched c N as).flushDone = true) :
    (es.foldl (Udp.ev c N) (Udp.sched c N as)).flushDone = true ∧
    (es.foldl (Udp.ev c N) (Udp.sched c N as)).exc = (Udp.sched c N as).exc := by
  have hA := sched_inv h0 hN as hb hd
  generalize Udp.sched c N as = u at *
  induction es generalizing u with
  | nil => exact ⟨hf, rfl⟩
  | cons e es ih =>
    have hA' : UAll c N (u.ev c N e) :=
      hA.act h0 hN (.ev e) (fun b h => by cases h) (by simp only [Udp.act, ev_dirty]; exact hd)
    obtain ⟨h1, h2⟩ := flush_stable (c := c) hA.inv e hf
    obtain ⟨h3, h4⟩ := ih (u.ev c N e) (by rw [ev_dirty]; exact hd) h1 hA'
    exact ⟨h3, h4.trans h2⟩

end

/-- C46. The memory in which the UDP client receives a reply (`mReplyMemory`, `ProtocolUDP.cpp` 92, of
`max_payload_size + 20` bytes) is as large as the receive buffer handed to the socket (279), for the packets of every program:
provided the addition does not wrap. -/
theorem C46_reply_memory {τ : Type} (c : Cfg) (T : Transport τ) (hw : WF c) (hT : T.Total) (hmax : c.maxReply.toNat + 20 < 2 ^ 32)
    (ops : List Op) (hops : ∀ op ∈ ops, op.ok c) (t : τ) (rs : List Res) (s : St τ)
    (hrun : runOps c T ops (St.init t) = some (rs, s)) (b : Buf) (hb : b ∈ s.hist) :
    4 * b.replyWords ≤ (c.maxReply + 20#32).toNat := by
  have := (C07_dispatched c T hw hT ops hops t rs s hrun b hb).2.2
  rw [BitVec.toNat_add]
  simp only [BitVec.toNat_ofNat]
  omega

/-! ### Programs over the UDP client -/

section
variable {c : Cfg} {N : Nat}

/-- Nothing is outstanding after `dispatch`. -/
theorem dispatch_pending {ρ : Type} {resp : ρ → List W → Option (List W) × ρ} (hw : WF c) (hcap : CapOK c) (hr : c.ver = .v2 → Roomy c)
    (ops : List Op) (hops : ∀ o ∈ ops, o.ok c) (rs : List Res) (s : St (Link ρ)) (h : Reach c resp (ops ++ [.dispatch]) rs s) :
    s.tr.pending = [] := by
  obtain ⟨e, sched, hrun⟩ := h
  rw [runOps_append] at hrun
  cases hA : runOps c (linkT c resp) ops (St.init (Link.init e sched)) with
  | none => rw [hA] at hrun; cases hrun
  | some p =>
    obtain ⟨ra, s1⟩ := p
    rw [hA] at hrun
    simp only [Option.bind_some, runOps] at hrun
    obtain ⟨fs, ls, log0, G, hI, _⟩ := Reach.inv (resp := resp) hw hcap hr hops ⟨e, sched, hA⟩
    have hs := lstep (resp := resp) hw hcap hr hI .dispatch trivial
    generalize Op.run c (linkT c resp) .dispatch s1 = r at hs hrun
    cases hs with
    | ok hh s' G' its obj inv ext mono real hok tiles disp =>
      simp only [Option.map_some, Option.some.injEq, Prod.mk.injEq] at hrun
      obtain ⟨_, rfl⟩ := hrun
      exact inv.ri.rep.fl (disp rfl).2
    | arg e' s' G' inv hitems hop => rcases hop with ⟨a, d, m, h, _⟩ | ⟨a, m, h, _⟩ <;> cases h
    | failed e' s' fs' ls' log1 inv he hlog =>
      simp only [Option.map_some, Option.some.injEq, Prod.mk.injEq] at hrun
      obtain ⟨_, rfl⟩ := hrun
      exact inv.ri.rep.fl rfl

/-- C16 over the UDP client: every program that ends with a dispatch, over every schedule of callbacks, when the datagrams
that arrive are the answers of a conforming target (`Follows`: the target was asked the packets in order), gives what the calls
give one at a time on the target's memory. -/
theorem C16_udp {σ ρ : Type} {tg : Target σ} {mem : ρ → σ} {resp : ρ → List W → Option (List W) × ρ} (h0 : 0 < N) (hN : N < 2 ^ 32)
    (hw : WF c) (hcap : CapOK c) (hr : c.ver = .v2 → Roomy c) (hc : Conforms c tg mem resp) (ops : List Op)
    (hops : ∀ op ∈ ops, op.ok c ∧ op.maskOK c.wrapNeg) (plan : List (List Ev)) (rs : List Res) (s : St UdpT)
    (h : runOps c (udpT c N) (ops ++ [.dispatch]) (St.init ⟨.init, plan, 0, []⟩) = some (rs, s)) (hd : s.tr.u.dirty = false)
    (e eEnd : ρ) (hf : Follows resp e s.tr.u.outcomes eEnd) :
    rs.map (resShow c.wrapNeg s.tr.u.heap) = (seqRun c.ver tg (ops ++ [.dispatch]) (mem e)).1.map (Option.map ValOut.data) ∧
    mem eEnd = (seqRun c.ver tg (ops ++ [.dispatch]) (mem e)).2 := by
  obtain ⟨sched, s', h1, hR, h8⟩ := udp_refines h0 hN _ plan rs s h hd hf
  have h2 := hR.inv
  have h9 := hR.mem
  have h11 := hR.pend
  have hp := dispatch_pending (resp := resp) hw hcap hr ops (fun o ho => (hops o ho).1) rs s' ⟨_, _, h1⟩
  obtain ⟨rs1, s1, g1, g2, g3⟩ := C16_refinement hw hcap hr hc ops hops e sched
  rw [h1] at g1; cases g1
  have hh : s.tr.u.heap = s'.tr.heap := by
    refine (h9.plain ?_).1
    intro x ws hm
    rw [h11] at hp
    have := h2.rops
    rw [hm] at this
    cases hb : s.tr.u.reply with
    | none => rw [hb] at this; simp at this
    | some b => simp [Udp.waiting, hm, hb] at hp
  rw [hh, ← h8]
  exact ⟨g2, g3⟩

/-- C15 over the UDP client: an object is valid exactly if a reply to the packet with its last part was accepted. -/
theorem C15_udp_valid_iff (h0 : 0 < N) (hN : N < 2 ^ 32) (hw : WF c) (hcap : CapOK c) (hr : c.ver = .v2 → Roomy c) (ops : List Op)
    (hops : ∀ op ∈ ops, op.ok c) (plan : List (List Ev)) (rs : List Res) (s : St UdpT)
    (h : runOps c (udpT c N) ops (St.init ⟨.init, plan, 0, []⟩) = some (rs, s)) (hd : s.tr.u.dirty = false) (o : Nat) :
    s.tr.u.heap.valid o = true ↔ ∃ e ∈ s.tr.u.log, e.out = .ok ∧ o ∈ e.buf.adds := by
  obtain ⟨sched, s', h1, hR, h8⟩ := udp_refines h0 hN _ plan rs s h hd (follows_list _)
  have h9 := hR.mem
  have := C15_valid_iff (resp := listResp) hw hcap hr ops hops rs s' ⟨_, _, h1⟩ o
  unfold MemRel at h9
  split at h9
  · rename_i x ws hm
    obtain ⟨b, q1, q2, q3⟩ := h9
    have hv := receive_valid c s'.tr.heap b ws o
    rw [q2] at hv
    simp only [reduceCtorEq, false_and, or_false] at hv
    rw [hv, this, q3]
    constructor
    · rintro ⟨e, he, h⟩; exact ⟨e, by simp [he], h⟩
    · rintro ⟨e, he, h⟩
      rcases List.mem_append.1 he with he | he
      · exact ⟨e, he, h⟩
      · rw [List.mem_singleton.1 he] at h; simp at h
  · rw [h9.1, h9.2]; exact this

/-- C15 over the UDP client: no part of an object is in a packet whose reply was refused, if the object is valid. -/
theorem C15_udp_failed (h0 : 0 < N) (hN : N < 2 ^ 32) (hw : WF c) (hcap : CapOK c) (hr : c.ver = .v2 → Roomy c) (ops : List Op)
    (hops : ∀ op ∈ ops, op.ok c) (plan : List (List Ev)) (rs : List Res) (s : St UdpT)
    (h : runOps c (udpT c N) ops (St.init ⟨.init, plan, 0, []⟩) = some (rs, s)) (hd : s.tr.u.dirty = false) (o : Nat)
    (hv : s.tr.u.heap.valid o = true) (b : Buf) (hb : b ∈ s.hist) (ht : b.touches o) : ∃ e ∈ s.tr.u.log, e.buf = b ∧ e.out = .ok := by
  obtain ⟨sched, s', h1, hR, h8⟩ := udp_refines h0 hN _ plan rs s h hd (follows_list _)
  have h9 := hR.mem
  have key := C15_complete (resp := listResp) hw hcap hr ops hops rs s' ⟨_, _, h1⟩ o
  rw [hR.hist] at key
  unfold MemRel at h9
  split at h9
  · rename_i x ws hm
    obtain ⟨b', q1, q2, q3⟩ := h9
    have hv' := receive_valid c s'.tr.heap b' ws o
    rw [q2] at hv'
    simp only [reduceCtorEq, false_and, or_false] at hv'
    obtain ⟨e, he, h⟩ := key (hv'.1 hv) b hb ht
    exact ⟨e, by rw [q3]; simp [he], h⟩
  · rw [h9.1] at hv
    obtain ⟨e, he, h⟩ := key hv b hb ht
    exact ⟨e, by rw [h9.2]; exact he, h⟩

/-- C17 over the UDP client. After a program whose last call failed otherwise than in an argument check, every continuation
gives the results, and hands over the packets, of a client constructed now and connected to an environment that answers as
this one did from then on. -/
theorem C17_udp {ρ : Type} {resp : ρ → List W → Option (List W) × ρ} (h0 : 0 < N) (hN : N < 2 ^ 32)
    (hw : WF c) (hcap : CapOK c) (hr : c.ver = .v2 → Roomy c) (ops ops' : List Op) (op : Op)
    (hops : ∀ o ∈ ops ++ [op], o.ok c) (hops' : ∀ op ∈ ops', op.ok c) (plan : List (List Ev)) (rs rs' : List Res) (x : Exc) (s s' : St UdpT)
    (h : runOps c (udpT c N) (ops ++ [op]) (St.init ⟨.init, plan, 0, []⟩) = some (rs ++ [.exc x], s))
    (h' : runOps c (udpT c N) ops' s = some (rs', s')) (hd : s'.tr.u.dirty = false) (e e1 e2 : ρ) (rest : List (Buf × Option (List W)))
    (ho : s'.tr.u.outcomes = s.tr.u.outcomes ++ rest) (hf : Follows resp e s.tr.u.outcomes e1) (hf' : Follows resp e1 rest e2)
    (h1 : ∀ a d m, op ≠ .writeMasked a d m ∨ x ≠ .bitsForbidden) (h2 : ∀ a m, op ≠ .readConfig a m ∨ c.ver = .v2) :
    ∃ sched rs0 sN, runOps c (linkT c resp) ops' (St.init (Link.init e1 sched)) = some (rs0, sN) ∧
      rs' = rs0.map (Res.shift s.nObj) ∧ s'.hist = s.hist ++ sN.hist.map (Buf.shift s.nObj s.nPre) ∧ sN.tr.env = e2 := by
  obtain ⟨sched, l, l', k1, k2, k3, k4, k5, k6, _⟩ := udp_refines₂ h0 hN _ ops' plan _ _ s s' h h' hd (ho ▸ hf.append hf')
  have he := hf.det k5
  obtain ⟨rs0, sN, l2, g1, g2, g3, _, g5, _⟩ := C17_fresh hw hcap hr ops ops' op hops hops' rs x l ⟨e, sched, k1⟩ h1 h2
  rw [k2] at g2; cases g2
  rw [← he] at g1
  refine ⟨_, rs0, sN, g1, by rw [k3.nObj], ?_, by rw [← g5, k6]⟩
  rw [← k4.hist, g3, k3.hist, k3.nObj, k3.nPre]

end

/-! ### Examples, and what goes wrong when the exception handler runs while operations are pending -/

/-- The packet of a single read. -/
def readPkt (v : Ver) : Buf :=
  ((runOps (demoCfg v) demoTr [.read 0x10, .dispatch] (St.init [])).bind fun p => p.2.hist.head?).getD ⟨[], [], []⟩

theorem readPkt_noUB (v : Ver) : NoUB (demoCfg v) (readPkt v) := by
  have h : ((runOps (demoCfg v) demoTr [.read 0x10, .dispatch] (St.init [])).bind fun p => p.2.hist.head?).isSome = true := by
    cases v <;> decide +kernel
  unfold readPkt
  cases hr : runOps (demoCfg v) demoTr [.read 0x10, .dispatch] (St.init []) with
  | none => rw [hr] at h; cases h
  | some p =>
    rw [hr] at h
    simp only [Option.bind_some] at h ⊢
    cases hh : p.2.hist with
    | nil => rw [hh] at h; cases h
    | cons b l =>
      refine client_noUB (demoCfg v) demoTr (demoCfg_wf v) (demoCap v) (fun _ => demoRoomy v) demoTr_total _ ?_ [] p.1 p.2 hr b (by rw [hh]; simp)
      intro op ho
      simp at ho
      rcases ho with rfl | rfl <;> trivial

/-- Three reads with IPbus 2.0: two packets on the wire, two answered in order, then a timeout. -/
def demoSched : List Act :=
  let b := readPkt .v2
  [.dispatch b, .dispatch b, .ev (.sendDone true), .dispatch b, .ev (.sendDone true), .ev (.recvBegin (some [0x200000F0, 0x20000100, 7])),
    .ev .recvEnd, .ev (.sendDone true), .ev (.recvBegin (some [0x200000F0, 0x20000100, 8])), .ev .recvEnd]

/-- Non-vacuity: the hypotheses hold; two packets are finished, one is in flight. -/
example : (∀ b, Act.dispatch b ∈ demoSched → NoUB (demoCfg .v2) b) ∧ (Udp.sched (demoCfg .v2) 16 demoSched).dirty = false ∧
    (Udp.sched (demoCfg .v2) 16 demoSched).sent.length = 3 ∧ (Udp.sched (demoCfg .v2) 16 demoSched).finished.length = 2 ∧
    (Udp.sched (demoCfg .v2) 16 demoSched).rx = [[0x200000F0, 0x20000100, 7], [0x200000F0, 0x20000100, 8]] ∧
    (Udp.sched (demoCfg .v2) 16 demoSched).flushDone = false := by
  refine ⟨?_, by decide +kernel⟩
  intro b hb
  simp [demoSched] at hb
  subst hb
  exact readPkt_noUB .v2

/-- Non-vacuity: with IPbus 1.3 the second packet waits; both `Flush` outcomes occur. -/
example : (Udp.sched (demoCfg .v1) 1 [.dispatch (readPkt .v1), .dispatch (readPkt .v1), .ev (.sendDone true)]).dispQ.length = 1 ∧
    (Udp.sched (demoCfg .v2) 16 (demoSched ++ [.ev (.recvBegin (some [0x200000F0, 0x20000100, 9])), .ev .recvEnd])).flushDone = true ∧
    (Udp.sched (demoCfg .v2) 16 (demoSched ++ [.ev (.recvBegin (some [0x200000F0, 0x20000100, 9])), .ev .recvEnd])).exc = none ∧
    (Udp.sched (demoCfg .v2) 16 (demoSched ++ [.ev .timeout, .ev (.recvBegin none)])).exc = some (.transport 0) ∧
    (Udp.sched (demoCfg .v2) 16 (demoSched ++ [.ev .timeout, .ev (.recvBegin none)])).flushDone = true := by decide +kernel

/-- Non-vacuity of `C20_terminates_partial`: two steps of the network thread while `Flush` waits. -/
example : let u := Udp.sched (demoCfg .v2) 16 [.dispatch (readPkt .v2)]
    u.flushDone = false ∧ u.enabled (.sendDone true) = true ∧ (u.ev (demoCfg .v2) 16 (.sendDone true)).flushDone = false ∧
    (u.ev (demoCfg .v2) 16 (.sendDone true)).enabled .timeout = true ∧
    ((u.ev (demoCfg .v2) 16 (.sendDone true)).ev (demoCfg .v2) 16 .timeout).flushDone = false := by decide +kernel

/-- Non-vacuity for the programs: a read answered by `DummyHardware` (the answers are those of the target), then a read whose
reply does not arrive (the exception handler runs with nothing pending), then a read again. -/
def udpProg : Option (List Res × St UdpT) :=
  runOps (demoCfg .v2) (udpT (demoCfg .v2) 16) [.read 0x10, .dispatch, .read 0x11, .dispatch, .read 0x12, .dispatch]
    (St.init ⟨.init, [[], [.sendDone true, .recvBegin (some [0x200000F0, 0x20000100, 5]), .recvEnd],
      [.timeout], [.sendDone true, .timeout, .recvBegin none], [], [.sendDone true, .recvBegin (some [0x200000F0, 0x20000100, 6]), .recvEnd]], 0, []⟩)

example : udpProg.map (fun p => p.2.tr.u.outcomes.map fun x => (x.1.send, x.2)) = some
    [([0x200000F0, 0x2000010F, 0x10], some [0x200000F0, 0x20000100, 5]), ([0x200000F0, 0x2001010F, 0x11], none),
     ([0x200000F0, 0x2000010F, 0x12], some [0x200000F0, 0x20000100, 6])] := by decide +kernel

example : udpProg.map (fun p => (p.2.tr.u.dirty, p.1[3]?)) = some (false, some (.exc (.transport 0))) := by decide +kernel

example : udpProg.map (fun p => p.1.map (resShow true p.2.tr.u.heap)) = some
    [some (.data [5]), some (.data []), some .nonValidated, none, some (.data [6]), some (.data [])] := by decide +kernel

example : (viaHub (demoCfg .v2) (dummyTarget fun _ => 0) ⟨fun _ => 5, 0⟩ [0x200000F0, 0x2000010F, 0x10]).1 = some [0x200000F0, 0x20000100, 5] := by
  decide +kernel

/-- Violation of C18 (and of C20): the handler clears `mDispatchBuffers` while a send is pending; its completion then dereferences
the null pointer (`ProtocolUDP.cpp` 229, 238). -/
theorem C18_violated_null : (Udp.sched (demoCfg .v2) 16 [.dispatch (readPkt .v2), .handler, .ev (.sendDone true)]).crashed = true := by
  decide +kernel

/-- Violation of C20: the completion of a send of the time before the exception makes a packet of the time after it fail. -/
theorem C20_violated_stale : (Udp.sched (demoCfg .v2) 16
    [.dispatch (readPkt .v2), .handler, .dispatch (readPkt .v2), .ev (.sendDone false)]).exc = some (.transport 0) := by decide +kernel

/-- Violation of C18: a datagram received for a packet of the time before the exception is taken as the reply to a packet of the
time after it; `Flush` returns while the reply to that packet is still to come. -/
theorem C18_violated_stale :
    let u := Udp.sched (demoCfg .v2) 16 [.dispatch (readPkt .v2), .ev (.sendDone true), .handler, .dispatch (readPkt .v2),
      .ev (.sendDone true), .ev (.recvBegin (some [0x200000F0, 0x20000100, 7])), .ev .recvEnd]
    u.flushDone = true ∧ u.exc = none ∧ u.finished.length = 1 ∧ u.recvOps.length = 1 := by decide +kernel

/-- Violation of C19: validation fails; the user thread sees the exception and runs the handler before the callback has taken the
lock for the last time; the callback then decrements the cleared counter, which wraps, and two IPbus 1.3 packets are in flight. -/
theorem C19_violated : (Udp.sched (demoCfg .v1) 1 [.dispatch (readPkt .v1), .ev (.sendDone true), .ev (.recvBegin (some [0])), .ev .recvEnd,
      .handler, .ev .recvEnd, .dispatch (readPkt .v1), .ev (.sendDone true), .dispatch (readPkt .v1)]).sent.length = 2 ∧
    (Udp.sched (demoCfg .v1) 1 [.dispatch (readPkt .v1), .ev (.sendDone true), .ev (.recvBegin (some [0])), .ev .recvEnd,
      .handler, .ev .recvEnd, .dispatch (readPkt .v1), .ev (.sendDone true), .dispatch (readPkt .v1)]).finished.length = 0 := by
  decide +kernel

end Verif
