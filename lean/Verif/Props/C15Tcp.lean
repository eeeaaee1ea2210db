import Verif.Lemmas.TcpRefine
import Verif.Props.C21
/-!
# C12, C15, C16, C17 over the TCP client

Programs of client calls on the state machine of the TCP client, for any number of packets per TCP chunk, any results of socket
operations and any interleaving with the network thread, as long as the exception handler does not run while an operation is
pending or a reply is expected (`dirty`, `stale`; what happens otherwise: `C22_violated_stall`, `C23_violated`). The body of a
chunk is scattered over all its packets before the first is validated, so that after a refused packet the memory of the
following ones holds words nobody checked; these packets are never marked valid.
-/

set_option autoImplicit false

namespace Verif
open Spec

section
variable {c : Cfg} {n N : Nat}

/-- C16 over the TCP client: every program that ends with a dispatch, over every schedule, when the replies that arrive are the
answers of a conforming target (`Follows`: the target was asked the packets in order), gives what the calls give one at a time
on the target's memory. -/
theorem C16_tcp {σ ρ : Type} {tg : Target σ} {mem : ρ → σ} {resp : ρ → List W → Option (List W) × ρ} (hp : TPar n N)
    (hw : WF c) (hcap : CapOK c) (hr : c.ver = .v2 → Roomy c) (hc : Conforms c tg mem resp) (ops : List Op)
    (hops : ∀ op ∈ ops, op.ok c ∧ op.maskOK c.wrapNeg) (plan : List (List TEv × Bool)) (rs : List Res) (s : St TcpT)
    (h : runOps c (tcpT c n N) (ops ++ [.dispatch]) (St.init (TcpT.init plan)) = some (rs, s)) (hd : s.tr.u.dirty = false)
    (hst : s.tr.u.stale = false) (e eEnd : ρ) (hf : Follows resp e s.tr.u.outcomes eEnd) :
    rs.map (resShow c.wrapNeg s.tr.u.heap) = (seqRun c.ver tg (ops ++ [.dispatch]) (mem e)).1.map (Option.map ValOut.data) ∧
    mem eEnd = (seqRun c.ver tg (ops ++ [.dispatch]) (mem e)).2 := by
  have hops' : ∀ op ∈ ops ++ [.dispatch], op.ok c := by
    intro o ho
    rcases List.mem_append.1 ho with ho | ho
    · exact (hops o ho).1
    · rw [List.mem_singleton.1 ho]; trivial
  obtain ⟨sched, s', h1, hR, h8⟩ := tcp_refines hp hw _ hops' plan rs s h hd hst hf
  have hpd := dispatch_pending (resp := resp) hw hcap hr ops (fun o ho => (hops o ho).1) rs s' ⟨_, _, h1⟩
  obtain ⟨rs1, s1, g1, g2, g3, g4, _⟩ := refinement_log hw hcap hr hc ops hops e sched
  rw [h1] at g1; cases g1
  rw [hR.heap hpd g4, ← h8]
  exact ⟨g2, g3⟩

/-- C15 over the TCP client: an object is valid exactly if a reply to the packet with its last part was accepted. -/
theorem C15_tcp_valid_iff (hp : TPar n N) (hw : WF c) (hcap : CapOK c) (hr : c.ver = .v2 → Roomy c) (ops : List Op)
    (hops : ∀ op ∈ ops, op.ok c) (plan : List (List TEv × Bool)) (rs : List Res) (s : St TcpT)
    (h : runOps c (tcpT c n N) ops (St.init (TcpT.init plan)) = some (rs, s)) (hd : s.tr.u.dirty = false) (hst : s.tr.u.stale = false) (o : Nat) :
    s.tr.u.heap.valid o = true ↔ ∃ e ∈ s.tr.u.log, e.out = .ok ∧ o ∈ e.buf.adds := by
  obtain ⟨sched, s', h1, hR, h8⟩ := tcp_refines hp hw _ hops plan rs s h hd hst (follows_list _)
  obtain ⟨ext, w1, w2, w3, _⟩ := hR.words
  rw [w3, C15_valid_iff (resp := listResp) hw hcap hr ops hops rs s' ⟨_, _, h1⟩ o, w1]
  constructor
  · rintro ⟨e, he, h⟩; exact ⟨e, by simp [he], h⟩
  · rintro ⟨e, he, h⟩
    rcases List.mem_append.1 he with he | he
    · exact ⟨e, he, h⟩
    · exact absurd h.1 (w2 e he)

/-- C15 over the TCP client: if an object is valid, every packet with a part of it was answered and the reply accepted. -/
theorem C15_tcp_failed (hp : TPar n N) (hw : WF c) (hcap : CapOK c) (hr : c.ver = .v2 → Roomy c) (ops : List Op)
    (hops : ∀ op ∈ ops, op.ok c) (plan : List (List TEv × Bool)) (rs : List Res) (s : St TcpT)
    (h : runOps c (tcpT c n N) ops (St.init (TcpT.init plan)) = some (rs, s)) (hd : s.tr.u.dirty = false) (hst : s.tr.u.stale = false) (o : Nat)
    (hv : s.tr.u.heap.valid o = true) (b : Buf) (hb : b ∈ s.hist) (ht : b.touches o) : ∃ e ∈ s.tr.u.log, e.buf = b ∧ e.out = .ok := by
  obtain ⟨sched, s', h1, hR, h8⟩ := tcp_refines hp hw _ hops plan rs s h hd hst (follows_list _)
  obtain ⟨ext, w1, w2, w3, _⟩ := hR.words
  have key := C15_complete (resp := listResp) hw hcap hr ops hops rs s' ⟨_, _, h1⟩ o
  rw [hR.hist] at key
  obtain ⟨e, he, h⟩ := key (by rw [← w3]; exact hv) b hb ht
  exact ⟨e, by rw [w1]; simp [he], h⟩

/-- C12 over the TCP client (partial as `C12_delivered_partial`): the words of a valid object are words of accepted replies to its
packets, although the replies of a chunk are stored before they are validated. -/
theorem C12_tcp_partial (hp : TPar n N) (hw : WF c) (hcap : CapOK c) (hr : c.ver = .v2 → Roomy c) (ops : List Op)
    (hops : ∀ op ∈ ops, op.ok c) (plan : List (List TEv × Bool)) (rs : List Res) (s : St TcpT)
    (h : runOps c (tcpT c n N) ops (St.init (TcpT.init plan)) = some (rs, s)) (hd : s.tr.u.dirty = false) (hst : s.tr.u.stale = false) (o : Nat)
    (hv : s.tr.u.heap.valid o = true) (b : Buf) (hb : b ∈ s.hist) (ht : b.touches o) :
    ∃ e ∈ s.tr.u.log, e.buf = b ∧ e.out = .ok ∧
      (∀ a hs r, b.reply = a ++ hs :: r → hs.loc.isHdr = true → (a.map Slot.len).sum < e.reply.length) ∧
      ∀ (p : Nat) (l : Loc), (bufLocs b)[p]? = some l → l.obj? ≠ none → s.tr.u.heap.word l = e.reply[p]?.getD 0 := by
  obtain ⟨sched, s', h1, hR, h8⟩ := tcp_refines hp hw _ hops plan rs s h hd hst (follows_list _)
  obtain ⟨ext, w1, w2, w3, w4⟩ := hR.words
  obtain ⟨e, he, k1, k2, k3, k4⟩ := C12_delivered_partial (resp := listResp) hw hcap hr ops hops rs s' ⟨_, _, h1⟩ o (by rw [← w3]; exact hv) b
    (by rw [hR.hist]; exact hb) ht
  refine ⟨e, by rw [w1]; simp [he], k1, k2, k3, ?_⟩
  intro p l hl ho
  rw [w4 e he k2 l (by rw [k1]; exact List.mem_of_getElem? hl)]
  exact k4 p l hl ho

/-- C17 over the TCP client. After a program whose last call failed otherwise than in an argument check, every continuation
gives the results, and hands over the packets, of a client constructed now and connected to an environment that answers as
this one did from then on. -/
theorem C17_tcp {ρ : Type} {resp : ρ → List W → Option (List W) × ρ} (hp : TPar n N)
    (hw : WF c) (hcap : CapOK c) (hr : c.ver = .v2 → Roomy c) (ops ops' : List Op) (op : Op)
    (hops : ∀ o ∈ ops ++ [op], o.ok c) (hops' : ∀ op ∈ ops', op.ok c) (plan : List (List TEv × Bool)) (rs rs' : List Res) (x : Exc) (s s' : St TcpT)
    (h : runOps c (tcpT c n N) (ops ++ [op]) (St.init (TcpT.init plan)) = some (rs ++ [.exc x], s))
    (h' : runOps c (tcpT c n N) ops' s = some (rs', s')) (hd : s'.tr.u.dirty = false) (hst : s'.tr.u.stale = false)
    (e e1 e2 : ρ) (rest : List (Buf × Option (List W)))
    (ho : s'.tr.u.outcomes = s.tr.u.outcomes ++ rest) (hf : Follows resp e s.tr.u.outcomes e1) (hf' : Follows resp e1 rest e2)
    (h1 : ∀ a d m, op ≠ .writeMasked a d m ∨ x ≠ .bitsForbidden) (h2 : ∀ a m, op ≠ .readConfig a m ∨ c.ver = .v2) :
    ∃ sched rs0 sN, runOps c (linkT c resp) ops' (St.init (Link.init e1 sched)) = some (rs0, sN) ∧
      rs' = rs0.map (Res.shift s.nObj) ∧ s'.hist = s.hist ++ sN.hist.map (Buf.shift s.nObj s.nPre) ∧ sN.tr.env = e2 := by
  obtain ⟨sched, l, l', k1, k2, k3, k4, k5, k6⟩ := tcp_refines₂ hp hw _ ops' hops hops' plan _ _ s s' h h' hd hst (ho ▸ hf.append hf')
  have he := hf.det k5
  obtain ⟨rs0, sN, l2, g1, g2, g3, _, g5, _⟩ := C17_fresh hw hcap hr ops ops' op hops hops' rs x l ⟨e, sched, k1⟩ h1 h2
  rw [k2] at g2; cases g2
  rw [← he] at g1
  refine ⟨_, rs0, sN, g1, by rw [k3.nObj], ?_, by rw [← g5, k6]⟩
  rw [← k4.hist, g3, k3.hist, k3.nObj, k3.nPre]

end

/-! ### Non-vacuity

Packets of at most three reads, two packets in a chunk. -/

def smallCfg : Cfg := ⟨.v2, none, 28, 28, true⟩

example : WF smallCfg ∧ CapOK smallCfg ∧ Roomy smallCfg ∧ TPar 2 16 :=
  ⟨⟨by decide, by decide, by decide⟩, by unfold CapOK; decide, ⟨by decide, by decide⟩, by decide, by decide, by decide, by decide⟩

def fourReads : List Op := [.read 0x10, .read 0x11, .read 0x12, .read 0x13]

/-- The packets of a call of `tcpProg` that are answered are answered by `DummyHardware` with five in every register. -/
def okBody : List W :=
  [0x200000F0, 0x20000100, 5, 0x20010100, 5, 0x20020100, 5, 0x200000F0, 0x20030100, 5]

/-- `steps`: for every packet handed over what happens before; for every `Flush` what happens before and while it waits. -/
def tcpProg (ops : List Op) (steps : List (List TEv)) : Option (List Res × St TcpT) :=
  runOps smallCfg (tcpT smallCfg 2 16) ops (St.init (TcpT.init (steps.map fun es => (es, true))))

/-- One chunk with two packets, answered; a chunk that is not answered in time; a chunk answered. -/
def tcpRun : Option (List Res × St TcpT) :=
  tcpProg (fourReads ++ .dispatch :: [.read 0x11, .dispatch, .read 0x12] ++ [.dispatch])
    [[], [], [], [.sendDone true, .recvHdr (some 10), .recvBody (some okBody), .recvEnd],
     [], [], [.sendDone true, .timeout, .recvHdr none],
     [], [], [.sendDone true, .recvHdr (some 3), .recvBody (some [0x200000F0, 0x20000100, 6]), .recvEnd]]

example : tcpRun.map (fun p => p.2.tr.u.outcomes.map fun x => (x.1.send, x.2)) = some
    [([0x200000F0, 0x2000010F, 0x10, 0x2001010F, 0x11, 0x2002010F, 0x12], some [0x200000F0, 0x20000100, 5, 0x20010100, 5, 0x20020100, 5]),
     ([0x200000F0, 0x2003010F, 0x13], some [0x200000F0, 0x20030100, 5]), ([0x200000F0, 0x2004010F, 0x11], none),
     ([0x200000F0, 0x2000010F, 0x12], some [0x200000F0, 0x20000100, 6])] := by decide +kernel

example : tcpRun.map (fun p => (p.2.tr.u.dirty, p.2.tr.u.stale, p.2.tr.u.sent.map List.length, p.1[6]?)) =
    some (false, false, [1], some (.exc (.transport 0))) := by decide +kernel

example : tcpRun.map (fun p => p.1.map (resShow true p.2.tr.u.heap)) = some
    [some (.data [5]), some (.data [5]), some (.data [5]), some (.data [5]), some (.data []), some .nonValidated, none, some (.data [6]),
     some (.data [])] := by decide +kernel

/-- For C16: the answers of the test target. -/
def tcpRun16 : Option (List Res × St TcpT) :=
  tcpProg (fourReads ++ [.dispatch]) [[], [], [], [.sendDone true, .recvHdr (some 10), .recvBody (some okBody), .recvEnd]]

example : tcpRun16.map (fun p => p.2.tr.u.outcomes.map fun x => (x.1.send, x.2)) = some
    [([0x200000F0, 0x2000010F, 0x10, 0x2001010F, 0x11, 0x2002010F, 0x12],
      (viaHub smallCfg (dummyTarget fun _ => 0) ⟨fun _ => 5, 0⟩ [0x200000F0, 0x2000010F, 0x10, 0x2001010F, 0x11, 0x2002010F, 0x12]).1),
     ([0x200000F0, 0x2003010F, 0x13], (viaHub smallCfg (dummyTarget fun _ => 0) ⟨fun _ => 5, 0⟩ [0x200000F0, 0x2003010F, 0x13]).1)] := by
  decide +kernel

/-- The first packet of a chunk is refused (a code that is not success): its words and those of the second packet are in memory
(the register of the fourth read shows the nine delivered for it), neither packet is valid. -/
theorem C12_tcp_junk :
    (tcpProg (fourReads ++ [.dispatch]) [[], [], [], [.sendDone true, .recvHdr (some 10),
      .recvBody (some [0x200000F0, 0x20000104, 5, 0x20010100, 5, 0x20020100, 5, 0x200000F0, 0x20030100, 9]), .recvEnd, .recvEnd]]).map
      (fun p => (p.2.tr.u.dirty, p.2.tr.u.stale, p.2.tr.u.log.map (fun x => x.out == .ok), (List.range 4).map p.2.tr.u.heap.valid,
        (List.range 4).map fun i => p.2.tr.u.heap.word (.data i 0))) =
    some (false, false, [false], [false, false, false, false], [5, 5, 5, 9]) := by decide +kernel

end Verif
