import Verif.Props.C57
import Verif.Props.C18
import Verif.Props.C15Tcp
import Verif.Props.C15Paged
/-!
# C57 over the UDP, TCP, PCIe and mmap clients

What the threads read, with the state machines of the clients instead of the generic link: after any `dispatch` of any thread,
everything asked for by any thread is as in the sequential execution of the calls in the order of `C57_serial`.
-/

set_option autoImplicit false

namespace Verif
open Spec

section
variable {τ : Type} {c : Cfg} {T : Transport τ}

/-- The calls so far, when the last one is a `dispatch`, as a program. -/
theorem mt_serial {prog : Nat → List Op} (hops : ∀ t, ∀ op ∈ prog t, op.ok c ∧ op.maskOK c.wrapNeg) {s0 : St τ} {ts : List Nat} {s : Sys τ}
    (h : (Sys.init prog s0).run c T ts = some s) {pre : List (Nat × Op × Res)} {t : Nat} {r : Res} (hl : s.log = pre ++ [(t, .dispatch, r)]) :
    (∀ op ∈ pre.map (fun x => x.2.1), op.ok c ∧ op.maskOK c.wrapNeg) ∧
    runOps c T (pre.map (fun x => x.2.1) ++ [.dispatch]) s0 = some (pre.map (fun x => x.2.2) ++ [r], s.cl) := by
  have H := MtInv.run ts (MtInv.init prog s0) h
  refine ⟨?_, ?_⟩
  · intro o ho
    obtain ⟨x, hx, rfl⟩ := List.mem_map.1 ho
    exact hops _ _ (mem_of_calls H (by rw [hl]; simp [hx]))
  · have := H.serial
    rw [hl] at this
    simpa using this

/-- The same with the result of the `dispatch` split off. -/
theorem shows_split {σ : Type} {tg : Target σ} {pre : List (Nat × Op × Res)} {r : Res} {h : Heap} {m : σ}
    (hs : (pre.map (fun x => x.2.2) ++ [r]).map (resShow c.wrapNeg h) =
      (seqRun c.ver tg (pre.map (fun x => x.2.1) ++ [.dispatch]) m).1.map (Option.map ValOut.data)) :
    (∃ hd, r = .ok hd) ∧ (pre.map fun x => resShow c.wrapNeg h x.2.2) =
      (seqRun c.ver tg (pre.map fun x => x.2.1) m).1.map (Option.map ValOut.data) := by
  rw [seqRun_dispatch] at hs
  simp only [List.map_append, List.map_cons, List.map_nil, List.map_map] at hs
  obtain ⟨g1, g2⟩ := List.append_inj' hs rfl
  refine ⟨?_, g1⟩
  cases r with
  | ok hd => exact ⟨hd, rfl⟩
  | exc e => simp [resShow] at g2

end

section
variable {σ ρ : Type} {c : Cfg} {tg : Target σ} {mem : ρ → σ} {resp : ρ → List W → Option (List W) × ρ}

/-- C57 over the UDP client. -/
theorem C57_udp {N : Nat} (h0 : 0 < N) (hN : N < 2 ^ 32) (hw : WF c) (hcap : CapOK c) (hr : c.ver = .v2 → Roomy c)
    (hc : Conforms c tg mem resp) (prog : Nat → List Op) (hops : ∀ t, ∀ op ∈ prog t, op.ok c ∧ op.maskOK c.wrapNeg)
    (plan : List (List Ev)) (ts : List Nat) (s : Sys UdpT) (h : (Sys.init prog (St.init ⟨.init, plan, 0, []⟩)).run c (udpT c N) ts = some s)
    (hd : s.cl.tr.u.dirty = false) (e eEnd : ρ) (hf : Follows resp e s.cl.tr.u.outcomes eEnd)
    (pre : List (Nat × Op × Res)) (t : Nat) (r : Res) (hl : s.log = pre ++ [(t, .dispatch, r)]) :
    ((∃ hd, r = .ok hd) ∧ (pre.map fun x => resShow c.wrapNeg s.cl.tr.u.heap x.2.2) =
      (seqRun c.ver tg (pre.map fun x => x.2.1) (mem e)).1.map (Option.map ValOut.data)) ∧
    mem eEnd = (seqRun c.ver tg (pre.map fun x => x.2.1) (mem e)).2 := by
  obtain ⟨ho, hrun⟩ := mt_serial hops h hl
  obtain ⟨h1, h2⟩ := C16_udp h0 hN hw hcap hr hc _ ho plan _ s.cl hrun hd e eEnd hf
  exact ⟨shows_split h1, by rw [h2, seqRun_dispatch]⟩

/-- C57 over the TCP client. -/
theorem C57_tcp {n N : Nat} (hp : TPar n N) (hw : WF c) (hcap : CapOK c) (hr : c.ver = .v2 → Roomy c)
    (hc : Conforms c tg mem resp) (prog : Nat → List Op) (hops : ∀ t, ∀ op ∈ prog t, op.ok c ∧ op.maskOK c.wrapNeg)
    (plan : List (List TEv × Bool)) (ts : List Nat) (s : Sys TcpT) (h : (Sys.init prog (St.init (TcpT.init plan))).run c (tcpT c n N) ts = some s)
    (hd : s.cl.tr.u.dirty = false) (hst : s.cl.tr.u.stale = false) (e eEnd : ρ) (hf : Follows resp e s.cl.tr.u.outcomes eEnd)
    (pre : List (Nat × Op × Res)) (t : Nat) (r : Res) (hl : s.log = pre ++ [(t, .dispatch, r)]) :
    ((∃ hd, r = .ok hd) ∧ (pre.map fun x => resShow c.wrapNeg s.cl.tr.u.heap x.2.2) =
      (seqRun c.ver tg (pre.map fun x => x.2.1) (mem e)).1.map (Option.map ValOut.data)) ∧
    mem eEnd = (seqRun c.ver tg (pre.map fun x => x.2.1) (mem e)).2 := by
  obtain ⟨ho, hrun⟩ := mt_serial hops h hl
  obtain ⟨h1, h2⟩ := C16_tcp hp hw hcap hr hc _ ho plan _ s.cl hrun hd hst e eEnd hf
  exact ⟨shows_split h1, by rw [h2, seqRun_dispatch]⟩

/-- C57 over the PCIe and mmap clients, with the device behind the pages. -/
theorem C57_paged_device {ps : Nat → PCfg} {i pages size start : Nat} {count0 : W} {e : ρ} (hw : WF c) (hcap : CapOK c) (hr : Roomy c)
    (hv : c.ver = .v2) (hc : Conforms c tg mem resp) (hs : c.maxSend.toNat ≤ 4 * (size - 1)) (hp : c.maxReply.toNat ≤ 4 * (size - 1))
    (hph : PHyp ps resp (PW.init ps pages size start count0 e).dev) (prog : Nat → List Op)
    (hops : ∀ t, ∀ op ∈ prog t, op.ok c ∧ op.maskOK c.wrapNeg) (plan : List (List PAct)) (hplan : ∀ as ∈ plan, ∀ a ∈ as, a.tame i)
    (ts : List Nat) (s : Sys (PagedT ρ))
    (h : (Sys.init prog (St.init (PagedT.init ps pages size start count0 e plan))).run c (pagedT c ps resp i) ts = some s)
    (pre : List (Nat × Op × Res)) (t : Nat) (r : Res) (hl : s.log = pre ++ [(t, .dispatch, r)]) :
    ((∃ hd, r = .ok hd) ∧ (pre.map fun x => resShow c.wrapNeg (s.cl.tr.w.cl i).heap x.2.2) =
      (seqRun c.ver tg (pre.map fun x => x.2.1) (mem e)).1.map (Option.map ValOut.data)) ∧
    mem s.cl.tr.w.dev.env = (seqRun c.ver tg (pre.map fun x => x.2.1) (mem e)).2 := by
  obtain ⟨ho, hrun⟩ := mt_serial hops h hl
  obtain ⟨h1, h2⟩ := C16_paged_device hw hcap hr hv hc hs hp hph _ ho plan hplan _ s.cl hrun
  exact ⟨shows_split h1, by rw [h2, seqRun_dispatch]⟩

end

/-- Non-vacuity: two threads queue a read each, thread 1 dispatches both in one packet, then thread 0 dispatches. -/
def twoSched : List Nat := [0, 0, 0, 0, 1, 1, 1, 1, 1, 1, 1, 1, 0, 0, 0, 0]

/-- What is sent and what the test target answers. -/
def twoSent : List W := [0x200000F0, 0x2000010F, 0x10, 0x2001010F, 0x11]

def twoReply : List W := [0x200000F0, 0x20000100, 5, 0x20010100, 5]

example : (viaHub (demoCfg .v2) (dummyTarget fun _ => 0) ⟨fun _ => 5, 0⟩ twoSent).1 = some twoReply ∧
    (viaHub smallCfg (dummyTarget fun _ => 0) ⟨fun _ => 5, 0⟩ twoSent).1 = some twoReply := by decide +kernel

def twoUdp : Option (Sys UdpT) :=
  (Sys.init twoReaders (St.init ⟨.init, [[], [.sendDone true, .recvBegin (some twoReply), .recvEnd]], 0, []⟩)).run
    (demoCfg .v2) (udpT (demoCfg .v2) 16) twoSched

example : twoUdp.map (fun s => (s.cl.tr.u.dirty, s.log.map (fun x => (x.1, x.2.1)))) =
    some (false, [(0, .read 0x10), (1, .read 0x11), (1, .dispatch), (0, .dispatch)]) := by decide +kernel

example : twoUdp.map (fun s => s.log.map (fun x => resShow true s.cl.tr.u.heap x.2.2)) =
    some [some (.data [5]), some (.data [5]), some (.data []), some (.data [])] := by decide +kernel

example : twoUdp.map (fun s => s.cl.tr.u.outcomes.map fun x => (x.1.send, x.2)) = some [(twoSent, some twoReply)] := by decide +kernel

def twoTcp : Option (Sys TcpT) :=
  (Sys.init twoReaders (St.init (TcpT.init ([[], [], [.sendDone true, .recvHdr (some 5), .recvBody (some twoReply), .recvEnd]].map
    fun es => (es, true))))).run smallCfg (tcpT smallCfg 2 16) twoSched

example : twoTcp.map (fun s => (s.cl.tr.u.dirty, s.cl.tr.u.stale, s.log.map (fun x => resShow true s.cl.tr.u.heap x.2.2))) =
    some (false, false, [some (.data [5]), some (.data [5]), some (.data []), some (.data [])]) := by decide +kernel

example : twoTcp.map (fun s => s.cl.tr.u.outcomes.map fun x => (x.1.send, x.2)) = some [(twoSent, some twoReply)] := by decide +kernel

example : ((Sys.init twoReaders (St.init (PagedT.init (allOf .poll 2) 4 8 0 0xFFFFFFFF#32 (⟨fun _ => 5, 0⟩ : Dev (W → W))
      [[.connect 0, .flock 0, .start 0, .write 0, .dev], [.poll 0, .fetch 0, .unlock 0, .finish 0]]))).run pageCfg
      (pagedT pageCfg (allOf .poll 2) (viaHub pageCfg (dummyTarget fun _ => 0)) 0) twoSched).map (fun s =>
    s.log.map (fun x => resShow true (s.cl.tr.w.cl 0).heap x.2.2)) =
    some [some (.data [5]), some (.data [5]), some (.data []), some (.data [])] := by decide +kernel

end Verif
