import Verif.Model.PerfPackets
import Verif.Spec.TargetTest
import Verif.Lemmas.Seq
/-!
# C94: the performance tester expects the replies that targets send

The requests are IPbus packets, they and their replies fit into an Ethernet frame, and the expected reply is that of a target that does what it should.

Where the script does otherwise: that all words of the port RAM are 0 is expected, but not brought about; one request (which is not used) reads from a wrong address.
-/

set_option autoImplicit false
set_option linter.unusedSimpArgs false

namespace Verif.Spec
open Verif

/-- `ws` is a packet of requests and `rep` the reply of the target `tg` in the state `m`. -/
def Expects {σ : Type} (tg : Target σ) (m : σ) (ws rep : List W) : Prop :=
  ∃ pid txns, parsePacket .v2 ws = some (pid, txns) ∧ rep = ws.take 1 ++ replyTo txns (execTxns .v2 tg (txns.map Prod.snd) m).1

/-- A packet that fits into a frame of 1500 bytes, of which IP and UDP take 28. -/
def InFrame (ws : List W) : Prop := 28 + 4 * ws.length ≤ 1500

end Verif.Spec

namespace Verif

open PerfPackets Spec

/-- All packets fit into a frame; `IPBUS_TXFULL_REQ` fills it. -/
theorem C94_frame : (∀ ws ∈ [txReq, txRep, bothReq, bothRep, pramTxReq, pramTxRep, pramRxReq, pramRxRep, pramBothReq, pramBothRep], InFrame ws) ∧ 28 + 4 * txReq.length = 1500 := by
  unfold InFrame
  decide +kernel

theorem perf_writes {σ : Type} (tg : Target σ) (inc : Bool) (a : W) (n : Nat) (m : σ) : (execAccs .v2 tg (Txn.write inc a (zeros n)).accs m).1 = [] :=
  execAccs_wr_nil _ _ _ _ m

/-- Any target: the request of `udp_ipbus_client` and `device_client_bw`. -/
theorem C94_tx {σ : Type} (tg : Target σ) (m : σ) : Expects tg m txReq txRep := by
  refine ⟨0, [(0xcba, .write true 0x1000#32 (zeros 0xff)), (0, .write true 0x1000#32 (zeros 0x6c))], by decide +kernel, ?_⟩
  simp only [List.map_cons, List.map_nil, execTxns, perf_writes]
  decide +kernel

/-- Any target: the request of `udp_ipbus_client_pramtx`. -/
theorem C94_pramtx {σ : Type} (tg : Target σ) (m : σ) : Expects tg m pramTxReq pramTxRep := by
  refine ⟨0, [(0, .write true 0x2000#32 (zeros 1)), (0, .write false 0x2001#32 (zeros 0xff)), (0, .write false 0x2001#32 (zeros 0x5c))], by decide +kernel, ?_⟩
  simp only [List.map_cons, List.map_nil, execTxns, perf_writes]
  decide +kernel

theorem perf_zero {σ : Type} {tg : Target σ} {R : W → Prop} {get : σ → W → W} (h : ActsAsRam tg R get) : ∀ (l : List W), (∀ a ∈ l, R a) → ∀ (m : σ) (b : W), R b → (b ∈ l ∨ get m b = 0#32) →
    get (execAccs .v2 tg (List.zipWith .wr l (zeros l.length)) m).2 b = 0#32
  | [], _, m, b, _, hb => by simpa [execAccs] using hb
  | a :: l, hl, m, b, hR, hb => by
    simp only [zeros, List.length_cons, List.replicate_succ, List.zipWith_cons_cons, execAccs, Acc.exec]
    refine perf_zero h l (fun x hx => hl x (List.mem_cons_of_mem _ hx)) _ b hR ?_
    have := h.wr m a 0#32 b (hl a (List.mem_cons_self ..)) hR
    rw [this]
    by_cases e : b = a
    · simp [e]
    · rcases hb with hb | hb
      · rcases List.mem_cons.1 hb with hb | hb
        · exact absurd hb e
        · exact .inl hb
      · exact .inr (by rw [if_neg e, hb])

theorem perf_reads {σ : Type} {tg : Target σ} {R : W → Prop} {get : σ → W → W} (h : ActsAsRam tg R get) : ∀ (l : List W), (∀ a ∈ l, R a) → ∀ (m : σ), (∀ b, R b → get m b = 0#32) →
    (execAccs .v2 tg (l.map .rd) m).1 = zeros l.length ∧ ∀ b, R b → get (execAccs .v2 tg (l.map .rd) m).2 b = 0#32
  | [], _, m, hm => ⟨rfl, hm⟩
  | a :: l, hl, m, hm => by
    have ha := hl a (List.mem_cons_self ..)
    have hr := h.rd m a ha
    obtain ⟨h1, h2⟩ := perf_reads h l (fun x hx => hl x (List.mem_cons_of_mem _ hx)) (tg.rd m a).2 (fun b hb => by rw [hr.2 b hb, hm b hb])
    simp only [List.map_cons, execAccs, Acc.exec, h1, hr.1, hm a ha]
    exact ⟨rfl, h2⟩

/-- The addresses of the requests. -/
theorem perf_region (n : Nat) (hn : n ≤ 255) : (∀ a ∈ addrs true 0x1000#32 n, InRegion 0x1000#32 255#32 a) ∧ ∀ a, InRegion 0x1000#32 (BitVec.ofNat 32 n) a → a ∈ addrs true 0x1000#32 n := by
  constructor
  · intro a ha
    simp only [addrs, List.mem_map, List.mem_range, if_true] at ha
    obtain ⟨i, hi, rfl⟩ := ha
    unfold InRegion
    simp only [BitVec.toNat_sub, BitVec.toNat_add, BitVec.toNat_ofNat]
    omega
  · intro a ha
    unfold InRegion at ha
    simp only [BitVec.toNat_ofNat] at ha
    simp only [addrs, List.mem_map, List.mem_range, if_true]
    refine ⟨(a - 0x1000#32).toNat, by omega, ?_⟩
    rw [BitVec.ofNat_toNat, BitVec.setWidth_eq]
    rw [BitVec.add_comm, BitVec.sub_add_cancel]

/-- Targets with 255 words of memory from 0x1000 on: the request of `udp_ipbus_client2`. -/
theorem C94_both {σ : Type} {tg : Target σ} {get : σ → W → W} (h : ActsAsRam tg (InRegion 0x1000#32 255#32) get) (m : σ) : Expects tg m bothReq bothRep := by
  refine ⟨0, [(0xcba, .write true 0x1000#32 (zeros 0xff)), (0xabc, .read true 0x1000#32 0xff), (0xdef, .write true 0x1000#32 (zeros 0x56)), (0xfed, .read true 0x1000#32 0x5a)], by decide +kernel, ?_⟩
  have hz : ∀ n, Txn.accs (.write true 0x1000#32 (zeros n)) = List.zipWith .wr (addrs true 0x1000#32 n) (zeros (addrs true 0x1000#32 n).length) := by
    intro n
    simp [Txn.accs, zeros, addrs]
  have hr : ∀ n, Txn.accs (.read true 0x1000#32 n) = (addrs true 0x1000#32 n).map .rd := fun n => rfl
  have hlen : ∀ n, (addrs true 0x1000#32 n).length = n := fun n => by simp [addrs]
  have z1 : ∀ b, InRegion 0x1000#32 255#32 b → get (execAccs .v2 tg (Txn.accs (.write true 0x1000#32 (zeros 0xff))) m).2 b = 0#32 := by
    intro b hb
    rw [hz]
    exact perf_zero h _ (perf_region 255 (by omega)).1 m b hb (.inl ((perf_region 255 (by omega)).2 b hb))
  obtain ⟨r1, z2⟩ := perf_reads h (addrs true 0x1000#32 0xff) (perf_region 255 (by omega)).1 _ z1
  have z3 : ∀ b, InRegion 0x1000#32 255#32 b → get (execAccs .v2 tg (Txn.accs (.write true 0x1000#32 (zeros 0x56))) (execAccs .v2 tg ((addrs true 0x1000#32 0xff).map .rd)
      (execAccs .v2 tg (Txn.accs (.write true 0x1000#32 (zeros 0xff))) m).2).2).2 b = 0#32 := by
    intro b hb
    rw [hz 0x56]
    exact perf_zero h _ (perf_region 0x56 (by omega)).1 _ b hb (.inr (z2 b hb))
  obtain ⟨r2, _⟩ := perf_reads h (addrs true 0x1000#32 0x5a) (perf_region 0x5a (by omega)).1 _ z3
  rw [hlen] at r1 r2
  simp only [List.map_cons, List.map_nil, execTxns, perf_writes, hr, r1, r2]
  decide +kernel

theorem perf_port {σ : Type} {tg : Target σ} {a : W} (h : ∀ m, (tg.rd m a).1 = 0#32) (n : Nat) : ∀ m, (execAccs .v2 tg (Txn.accs (.read false a n)) m).1 = zeros n := by
  have e : Txn.accs (.read false a n) = (List.replicate n a).map .rd := by
    simp only [Txn.accs, addrs, Bool.false_eq_true, if_false]
    congr 1
    rw [List.map_const', List.length_range]
  rw [e]
  clear e
  induction n with
  | zero => intro m; rfl
  | succ n ih =>
    intro m
    simp only [List.replicate_succ, List.map_cons, execAccs, Acc.exec, h m, ih, zeros]
    rfl

/-- The request of `udp_ipbus_client_pramrx`, `tcp_ch_client` and `tcp_ch_client2`. `partial`: for targets in which reads of 0x2001 give 0. -/
theorem C94_pramrx_partial {σ : Type} {tg : Target σ} (h : ∀ m, (tg.rd m 0x2001#32).1 = 0#32) (m : σ) : Expects tg m pramRxReq pramRxRep := by
  refine ⟨0, [(0, .write true 0x2000#32 (zeros 1)), (0, .read false 0x2001#32 0xff), (0, .read false 0x2001#32 0x5c)], by decide +kernel, ?_⟩
  simp only [List.map_cons, List.map_nil, execTxns, perf_writes, perf_port h]
  decide +kernel

/-- Memory is such a target, and so is one that is always 0. -/
example : ActsAsRam ram (InRegion 0x1000#32 255#32) (fun m a => m a) := ⟨fun _ _ _ => ⟨rfl, fun _ _ => rfl⟩, fun _ _ _ _ _ _ => rfl⟩

example : ∃ tg : Target Unit, ∀ m, (tg.rd m 0x2001#32).1 = 0#32 := ⟨⟨fun _ _ => (0#32, ()), fun _ _ _ => (), fun _ _ => (0#32, ())⟩, fun _ => rfl⟩

/-! ### Where the script goes wrong -/

/-- A target without state in which 0x2001 reads as `x` and everything else as `y`. -/
def constTarget (x y : W) : Target Unit where
  rd _ a := (if a = 0x2001#32 then x else y, ())
  wr _ _ _ := ()
  cfg _ _ := (0#32, ())

/-- If there is something else in the port RAM, the tester reports a wrong reply. -/
theorem C94_violated_contents : ¬ Expects (constTarget 1#32 0#32) () pramRxReq pramRxRep := by
  rintro ⟨pid, txns, h1, h2⟩
  have e : parsePacket .v2 pramRxReq = some (0, [(0, .write true 0x2000#32 (zeros 1)), (0, .read false 0x2001#32 0xff), (0, .read false 0x2001#32 0x5c)]) := by decide +kernel
  rw [e] at h1
  simp only [Option.some.injEq, Prod.mk.injEq] at h1
  obtain ⟨rfl, rfl⟩ := h1
  revert h2
  decide +kernel

/-- `IPBUS_BOTHFULL_PRAM_REQ` reads the first block from 0x20002001. -/
theorem C94_violated_address : ¬ Expects (constTarget 0#32 1#32) () pramBothReq pramBothRep := by
  rintro ⟨pid, txns, h1, h2⟩
  have e : parsePacket .v2 pramBothReq = some (0, [(0, .write true 0x2000#32 (zeros 1)), (0, .write false 0x2001#32 (zeros 0xff)), (0, .write false 0x2001#32 (zeros 0x55)),
    (0, .write true 0x2000#32 (zeros 1)), (0, .read false 0x20002001#32 0xff), (0, .read false 0x2001#32 0x5c)]) := by decide +kernel
  rw [e] at h1
  simp only [Option.some.injEq, Prod.mk.injEq] at h1
  obtain ⟨rfl, rfl⟩ := h1
  revert h2
  decide +kernel

end Verif
