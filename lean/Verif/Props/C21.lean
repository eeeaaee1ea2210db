import Verif.Lemmas.TcpAll
import Verif.Props.C18
/-!
# C21, C22, C23: the TCP client

Schedules: any sequence of `implementDispatch`, the two parts of `Flush`, `dispatchExceptionHandler` and steps of the network
thread, with any result of every socket operation. `dirty` is set when the exception handler runs although a callback is in
progress or an operation is pending, `stale` when it runs with entries in `mReplyQueue`. The properties are claimed for every
schedule; that is false, see `C22_violated_limit`, `C22_violated_stall`, `C23_violated`. What is proved (`_partial`) is the
claim for all schedules in which the handler does not run at such a moment, with the limit that the code keeps.
-/

set_option autoImplicit false

namespace Verif
open Spec

/-! ### What a receiver makes of the stream -/

/-- A receiver of length-prefixed messages: a word that gives the number of bytes, then that many bytes (as words). -/
def unframe : Nat → List W → Option (List (List W))
  | _, [] => some []
  | 0, _ :: _ => none
  | fuel + 1, k :: ws =>
    if k.toNat % 4 = 0 ∧ k.toNat / 4 ≤ ws.length then (unframe fuel (ws.drop (k.toNat / 4))).map fun r => ws.take (k.toNat / 4) :: r
    else none

/-- What the peer sees, as one stream of words. -/
def stream (fs : List TcpFrame) : List W := fs.flatMap fun f => f.count :: f.words

theorem mkFrame_count (bs : List Buf) : (mkFrame bs).count = BitVec.ofNat 32 (4 * (mkFrame bs).words.length) := by
  have key : ∀ s : W, bs.foldl (fun s b => s + BitVec.ofNat 32 (4 * b.send.length)) s = s + BitVec.ofNat 32 (4 * (bs.flatMap (·.send)).length) := by
    induction bs with
    | nil => intro s; simp
    | cons b bs ih =>
      intro s
      rw [List.foldl_cons, ih, List.flatMap_cons, List.length_append, Nat.mul_add, BitVec.ofNat_add, BitVec.add_assoc]
  have := key 0#32
  rw [BitVec.zero_add] at this
  exact this

theorem mkFrame_toNat {n m : Nat} {bs : List Buf} (hn : bs.length ≤ n) (hm : n * m < 2 ^ 32) (hb : ∀ b ∈ bs, 4 * b.send.length ≤ m) :
    (mkFrame bs).count.toNat = 4 * (mkFrame bs).words.length := by
  have h : 4 * (mkFrame bs).words.length ≤ bs.length * m := by
    clear hn
    induction bs with
    | nil => simp [mkFrame]
    | cons b bs ih =>
      have h1 := ih fun b hb' => hb b (by simp [hb'])
      have h2 := hb b (by simp)
      simp only [mkFrame, List.flatMap_cons, List.length_append, List.length_cons, Nat.add_mul, Nat.one_mul] at h1 ⊢
      omega
  have := Nat.mul_le_mul_right m hn
  rw [mkFrame_count, BitVec.toNat_ofNat]
  exact Nat.mod_eq_of_lt (by omega)

theorem unframe_stream (fs : List TcpFrame) (h : ∀ f ∈ fs, f.count.toNat = 4 * f.words.length) (fuel : Nat) (hf : fs.length ≤ fuel) :
    unframe fuel (stream fs) = some (fs.map (·.words)) := by
  induction fs generalizing fuel with
  | nil => cases fuel <;> rfl
  | cons f fs ih =>
    cases fuel with
    | zero => simp at hf
    | succ k =>
      have h1 := h f (by simp)
      have h2 := ih (fun f hf => h f (by simp [hf])) k (by simpa using hf)
      have e : stream (f :: fs) = f.count :: (f.words ++ stream fs) := by simp [stream]
      have e4 : f.count.toNat / 4 = f.words.length := by omega
      rw [e, unframe, e4, if_pos ⟨by omega, by simp⟩, List.drop_left, List.take_left, h2]
      rfl

section
variable {c : Cfg} {n N : Nat} (hp : TPar n N) (as : List TAct) (hb : ∀ b conn, TAct.dispatch b conn ∈ as → NoUB c b)
  (hd : (Tcp.sched c n N as).dirty = false) (hs : (Tcp.sched c n N as).stale = false)
include hp hb hd hs

/-- C21. The packets that have been sent are, in order, the first of those dispatched, each once, in chunks of one to `n` packets.
The replies that have been received belong to the chunks in this order. The packets not sent yet, or not answered, are exactly
those in `mReplyBuffers`, `mReplyQueue`, `mDispatchBuffers`, `mDispatchQueue`. No undefined behaviour occurs. -/
theorem C21_order_partial : ∃ u, u = Tcp.sched c n N as ∧ u.crashed = false ∧ u.sent.flatten <+: u.dispatched ∧
    (∀ ch ∈ u.sent, ch ≠ [] ∧ ch.length ≤ n) ∧ u.wire = u.sent.map mkFrame ∧ u.matched = u.sent.zip u.rx ∧
    u.rx.length ≤ u.sent.length ∧ u.dispatched = u.finished.flatten ++ u.reply ++ u.replyQ.flatten ++ u.disp ++ u.dispQ := by
  have h := tsched_inv hp as hb hd hs
  generalize Tcp.sched c n N as = u at h
  refine ⟨_, rfl, h.crash, ?_, h.inv.chunk, h.inv.wire, h.inv.mat, ?_, ?_⟩
  · rw [h.inv.disp, h.inv.sent]
    simp only [List.flatten_append, one_flatten, ← List.append_assoc]
    exact List.prefix_append _ _
  · have := h.inv.rxl
    rw [h.inv.sent]; simp only [List.length_append]; omega
  · rw [h.inv.disp]; simp only [List.append_assoc]

/-- C21. The length in front of a chunk is the number of bytes that follow, and a receiver that cuts the stream by these lengths
finds exactly the chunks, if packets have at most `m` bytes and `n * m` does not exceed 32 bits. -/
theorem C21_framing_partial {m : Nat} (hm : n * m < 2 ^ 32) (hlen : ∀ b ∈ (Tcp.sched c n N as).dispatched, 4 * b.send.length ≤ m) :
    ∃ u, u = Tcp.sched c n N as ∧ (∀ f ∈ u.wire, f.count.toNat = 4 * f.words.length) ∧
      unframe u.wire.length (stream u.wire) = some (u.sent.map fun ch => ch.flatMap (·.send)) := by
  have h := tsched_inv hp as hb hd hs
  generalize Tcp.sched c n N as = u at h hlen
  have hf : ∀ f ∈ u.wire, f.count.toNat = 4 * f.words.length := by
    rw [h.inv.wire]
    intro f hf
    obtain ⟨ch, hch, rfl⟩ := List.mem_map.1 hf
    refine mkFrame_toNat (h.inv.chunk ch hch).2 hm fun b hb => hlen b ?_
    have hx : u.sent.flatten <+: u.dispatched := by
      rw [h.inv.disp, h.inv.sent]
      simp only [List.flatten_append, one_flatten, ← List.append_assoc]
      exact List.prefix_append _ _
    exact hx.subset (List.mem_flatten.2 ⟨ch, hch, hb⟩)
  refine ⟨_, rfl, hf, ?_⟩
  rw [unframe_stream _ hf _ (Nat.le_refl _), h.inv.wire, List.map_map]
  rfl

/-- C21. A chunk counts as finished only after the reply in its place was scattered over the slots of its packets and every one
of them was validated successfully. -/
theorem C21_finished_partial : ∃ u, u = Tcp.sched c n N as ∧ u.finished <+: u.sent ∧ (u.matched.take u.finished.length).map Prod.fst = u.finished ∧
    ∀ x ∈ u.matched.take u.finished.length, ∃ h : Heap, ∀ b ∈ x.1, validateBuf c (scatter h (x.1.flatMap (·.reply)) x.2).word b = .ok := by
  have h := tsched_inv hp as hb hd hs
  generalize Tcp.sched c n N as = u at h
  refine ⟨_, rfl, ?_, ?_, h.ok.fin⟩
  · rw [h.inv.sent]; exact List.prefix_append _ _
  · have hlen : u.finished.length ≤ u.rx.length := by rw [← h.inv.matched_length]; exact h.ok.len
    rw [List.map_take, h.inv.mat, zip_fst, List.take_take, Nat.min_eq_left hlen, h.inv.sent, List.take_left]

/-- C22. Never more than `N + n` packets have been sent whose replies have not been processed; never more than `N` if no `Flush` was
started after the last dispatch. (The property asks for `N` always: see `C22_violated_limit`.) -/
theorem C22_limit_partial : ∃ u, u = Tcp.sched c n N as ∧ u.sent.flatten.length - u.finished.flatten.length ≤ N + n ∧
    (u.flushStarted = false → u.sent.flatten.length - u.finished.flatten.length ≤ N) := by
  have h := (tsched_inv hp as hb hd hs).inv
  generalize Tcp.sched c n N as = u at h
  have h1 := h.fl
  have h2 := h.lim2
  have h3 := h.lim1
  have e : u.sent.flatten.length - u.finished.flatten.length = u.inFlight := by
    rw [h.sent, h1]
    simp only [List.flatten_append, one_flatten, List.length_append]
    omega
  exact ⟨_, rfl, by omega, fun hf => by have := h3 hf; omega⟩

/-- C22. If `Flush` returns, every packet dispatched has been sent, and its chunk has received the reply in its place, which was
accepted. -/
theorem C22_complete_partial (u' : Tcp) (hpc : (Tcp.sched c n N as).pc = .flushing) (hf : (Tcp.sched c n N as).flushEnd = .ok () u') :
    u'.exc = none ∧ u'.dispatched = (Tcp.sched c n N as).dispatched ∧ u'.finished = u'.sent ∧ u'.sent.flatten = u'.dispatched ∧ u'.rx.length = u'.sent.length ∧
    u'.matched = u'.sent.zip u'.rx ∧ ∀ x ∈ u'.matched, ChunkOk c x.1 x.2 := by
  have hA := tsched_inv hp as hb hd hs
  generalize Tcp.sched c n N as = u at hA hf hpc
  have hx : u' = { u with pc := .idle } := by
    rcases flushEnd_cases u with h | h | ⟨e, h⟩ <;> rw [h] at hf
    · cases hf
    · injection hf with _ h; exact h.symm
    · cases hf
  obtain ⟨hi, he, h1, h2, h4⟩ := hA.inv.flushEnd hp.h0 hpc hf
  rw [hx]
  clear hi hf hx u'
  have hi := hA.inv
  have h3 := hi.rq h2
  have h7 := hi.rops' he
  have hm : u.mid = none := by
    cases hm : u.mid with
    | none => rfl
    | some m => rw [hm, h2] at h7; simp at h7
  have h8 := hi.rxl' he (by simp [hm]) (by simp [hm])
  have hsf : u.sent = u.finished := by rw [hi.sent, h1, h2, h3]; simp
  have hdf : u.dispatched = u.finished.flatten := by rw [hi.disp, h1, h2, h3, h4]; simp
  refine ⟨he, rfl, hsf.symm, (by rw [hsf, hdf] : u.sent.flatten = u.dispatched), (by rw [hsf, h8] : u.rx.length = u.sent.length), hi.mat, ?_⟩
  have := hA.ok.fin
  rwa [List.take_of_length_le (by rw [hi.matched_length, h8]; exact Nat.le_refl _)] at this

/-- C22. No lost wake-up: if nothing is outstanding and there was no error, the wait in `Flush` ends; after an error it throws, as soon
as the callback that found it has finished and no send is pending. -/
theorem C22_wakes_partial : ∃ u, u = Tcp.sched c n N as ∧
    (u.exc = none → u.finished.flatten = u.dispatched → u.flushEnd = .ok () { u with pc := .idle }) ∧
    ∀ e, u.exc = some e → u.mid = none → u.sendOps = [] → u.flushEnd = .exc e { u with pc := .thrown } := by
  have h := (tsched_inv hp as hb hd hs).inv
  generalize Tcp.sched c n N as = u at h
  refine ⟨_, rfl, ?_, ?_⟩
  · intro he hfin
    have hx : u.reply ++ (u.replyQ.flatten ++ (u.disp ++ u.dispQ)) = [] := by
      have := h.disp
      rw [← hfin] at this
      exact List.self_eq_append_right.1 this
    simp only [List.append_eq_nil_iff] at hx
    simp [Tcp.flushEnd, he, (h.flush he).2 ⟨hx.2.2.1, hx.1⟩]
  · intro e he hm hso
    have := h.wake (by simp [he])
    rw [hm, hso] at this
    simp only [reduceCtorEq, or_false, ne_eq, not_true] at this
    simp [Tcp.flushEnd, this, he]

/-- C22. While `Flush` waits, something is outstanding: the network thread is in a callback or an operation is pending; if moreover
the deadline has passed, every pending operation has been aborted by closing the socket. -/
theorem C22_pending_partial : ∃ u, u = Tcp.sched c n N as ∧ (u.flushDone = false →
    (u.mid ≠ none ∨ u.sendOps ≠ [] ∨ u.recvOps ≠ []) ∧
    (u.deadline = .inf → u.exc = none → (∀ x ∈ u.sendOps, x = true) ∧ ∀ x ∈ u.recvOps, x = true)) := by
  have h := (tsched_inv hp as hb hd hs).inv
  generalize Tcp.sched c n N as = u at h
  refine ⟨_, rfl, ?_⟩
  intro hf
  refine ⟨?_, fun h1 h2 => h.dl h2 h1⟩
  cases he : u.exc with
  | some e =>
    rcases h.wake (by simp [he]) with h | h | h
    · rw [hf] at h; cases h
    · left; rw [h]; simp
    · right; left; exact h
  | none =>
    have h1 : ¬ (u.disp = [] ∧ u.reply = []) := fun hx => by rw [(h.flush he).2 hx] at hf; cases hf
    have h2 := h.sops' he
    have h3 := h.rops' he
    by_cases hdd : u.disp = []
    · have hr : u.reply ≠ [] := fun hr => h1 ⟨hdd, hr⟩
      rw [one_ne hr] at h3
      cases hm : u.mid with
      | some m => left; simp
      | none =>
        right; right
        intro hx; rw [hx, hm] at h3; simp at h3
    · right; left
      rw [one_ne hdd] at h2
      intro hx; rw [hx] at h2; simp at h2

end

/-! ### Examples, and violations -/

theorem tpar_v1 : TPar 1 (maxPackets .v1) := ⟨by decide, by decide, by decide, by decide⟩
theorem tpar_v2 : TPar 1 (maxPackets .v2) := ⟨by decide, by decide, by decide, by decide⟩
/-- ControlHub: chunks of three packets (`ProtocolTCP.cpp` 657), 60 in flight (`ProtocolControlHub.cpp` 280-283). -/
theorem tpar_hub : TPar 3 60 := ⟨by decide, by decide, by decide, by decide⟩

/-- Four reads, chunks of three packets: a full chunk, and a chunk with one packet that `Flush` sends; the first is answered. -/
def demoTcp : List TAct :=
  let b := readPkt .v2
  [.dispatch b true, .dispatch b true, .dispatch b true, .dispatch b true, .ev (.sendDone true), .flushStart, .ev (.recvHdr (some 9)),
    .ev (.recvBody (some [0x200000F0, 0x20000100, 7, 0x200000F0, 0x20000100, 8, 0x200000F0, 0x20000100, 9])), .ev .recvEnd]

/-- … and the other. -/
def demoTcp' : List TAct :=
  [.ev (.sendDone true), .ev (.recvHdr (some 3)), .ev (.recvBody (some [0x200000F0, 0x20000100, 10])), .ev .recvEnd]

/-- Non-vacuity: the hypotheses hold. -/
example : (∀ b conn, TAct.dispatch b conn ∈ demoTcp → NoUB (demoCfg .v2) b) ∧ (Tcp.sched (demoCfg .v2) 3 60 demoTcp).dirty = false ∧
    (Tcp.sched (demoCfg .v2) 3 60 demoTcp).stale = false ∧ (Tcp.sched (demoCfg .v2) 3 60 demoTcp).sent.map List.length = [3, 1] ∧
    (Tcp.sched (demoCfg .v2) 3 60 demoTcp).finished.length = 1 ∧ (Tcp.sched (demoCfg .v2) 3 60 demoTcp).flushDone = false := by
  refine ⟨?_, by decide +kernel⟩
  intro b conn hb
  simp [demoTcp] at hb
  rw [hb.1]
  exact readPkt_noUB .v2

example : stream (Tcp.sched (demoCfg .v2) 3 60 demoTcp).wire =
    [36, 0x200000F0, 0x2000010F, 0x10, 0x200000F0, 0x2000010F, 0x10, 0x200000F0, 0x2000010F, 0x10, 12, 0x200000F0, 0x2000010F, 0x10] := by
  decide +kernel

example : (Tcp.sched (demoCfg .v2) 3 60 (demoTcp ++ demoTcp')).pc = .flushing ∧ (Tcp.sched (demoCfg .v2) 3 60 (demoTcp ++ demoTcp')).flushDone = true ∧
    (Tcp.sched (demoCfg .v2) 3 60 (demoTcp ++ demoTcp')).exc = none ∧ (Tcp.sched (demoCfg .v2) 3 60 (demoTcp ++ demoTcp')).finished.length = 2 := by
  decide +kernel

/-- … and a failure: the socket is closed by the timer, `Flush` throws. -/
example : (Tcp.sched (demoCfg .v2) 3 60 (demoTcp ++ [.ev .timeout, .ev (.sendDone false)])).exc = some (.transport 0) ∧
    (Tcp.sched (demoCfg .v2) 3 60 (demoTcp ++ [.ev .timeout, .ev (.sendDone false), .flushEnd])).pc = .thrown := by decide +kernel

/-- Violation of C22: `Flush` sends a queued chunk although the limit is reached (575-577): two IPbus 1.3 packets in flight instead of
one, 17 of IPbus 2.0 instead of 16. -/
theorem C22_violated_limit :
    (let u := Tcp.sched (demoCfg .v1) 1 1 [.dispatch (readPkt .v1) true, .ev (.sendDone true), .dispatch (readPkt .v1) true, .flushStart]
     u.sent.flatten.length - u.finished.flatten.length = 2 ∧ u.dirty = false ∧ u.stale = false) ∧
    (let u := Tcp.sched (demoCfg .v2) 1 16 ((List.replicate 16 [.dispatch (readPkt .v2) true, .ev (.sendDone true)]).flatten ++
       [.dispatch (readPkt .v2) true, .flushStart])
     u.sent.flatten.length - u.finished.flatten.length = 17) := by decide +kernel

/-- Violation of C22 (and of the purpose of the timeout): when the header of a reply has arrived but not its body, the network thread is
blocked in `boost::asio::read` (455). However often the deadline passes, `Flush` waits. -/
theorem C22_violated_stall (k : Nat) :
    ∃ u, u = Tcp.sched (demoCfg .v2) 1 16 ([.dispatch (readPkt .v2) true, .flushStart, .ev (.sendDone true), .ev (.recvHdr (some 3))] ++
      List.replicate k (.ev .timeout)) ∧ u.pc = .flushing ∧ u.flushDone = false ∧ u.exc = none ∧ u.sock = true := by
  refine ⟨_, rfl, ?_⟩
  induction k with
  | zero => decide +kernel
  | succ k ih =>
    have e : ∀ u : Tcp, u.mid = some (.body 3) → u.act (demoCfg .v2) 1 16 (.ev .timeout) = u := by
      intro u hu
      simp only [Tcp.act, Tcp.ev, hu]
      split <;> rfl
    have hfix : ∀ (k : Nat) (u : Tcp), u.mid = some (.body 3) → (List.replicate k (.ev .timeout)).foldl (Tcp.act (demoCfg .v2) 1 16) u = u := by
      intro k
      induction k with
      | zero => intro u _; rfl
      | succ k ih => intro u hu; rw [List.replicate_succ, List.foldl_cons, e u hu, ih u hu]
    unfold Tcp.sched at ih ⊢
    rw [List.foldl_append] at ih ⊢
    rw [hfix _ _ (by decide +kernel)] at ih ⊢
    exact ih

/-- C23, the part that holds: if the handler runs with nothing pending and with an empty `mReplyQueue`, then what it leaves behind differs
from a new client only in what is recorded of the past, in the memory, and in `mFlushStarted` and the deadline. -/
theorem C23_clean_partial (u : Tcp) (hd : u.handler.dirty = false) (hs : u.handler.stale = false) :
    u.handler = { Tcp.init with
      flushStarted := u.flushStarted, deadline := u.deadline, heap := u.heap, crashed := u.crashed, log := u.log, outcomes := u.outcomes } := by
  simp [Tcp.handler] at hd hs
  obtain ⟨⟨⟨h0, h1⟩, h2⟩, h3⟩ := hd
  simp [Tcp.handler, Tcp.init, Tcp.close, h0, h1, h2, h3, hs.1, hs.2]

/-- Non-vacuity: a timeout with one packet in flight. -/
example : (Tcp.sched (demoCfg .v2) 1 16 [.dispatch (readPkt .v2) true, .flushStart, .ev (.sendDone true), .ev .timeout, .ev (.recvHdr none),
      .flushEnd, .handler]).dirty = false ∧
    (Tcp.sched (demoCfg .v2) 1 16 [.dispatch (readPkt .v2) true, .flushStart, .ev (.sendDone true), .ev .timeout, .ev (.recvHdr none),
      .flushEnd, .handler]).stale = false := by decide +kernel

/-- A failure with two packets in flight, seen by `Flush` and handled with nothing pending. -/
def staleSched : List TAct :=
  [.dispatch (readPkt .v2) true, .ev (.sendDone true), .dispatch (readPkt .v2) true, .ev (.sendDone true), .flushStart, .ev .timeout,
    .ev (.recvHdr none), .flushEnd, .handler]

/-- One packet, answered. -/
def okSched : List TAct :=
  [.dispatch (readPkt .v2) true, .ev (.sendDone true), .ev (.recvHdr (some 3)), .ev (.recvBody (some [0x200000F0, 0x20000100, 7])), .ev .recvEnd]

/-- Violation of C23: an entry of `mReplyQueue` survives the exception handler (619-620 empty the entries, nothing removes them). -/
theorem C23_violated : (Tcp.sched (demoCfg .v2) 1 16 staleSched).replyQ = [[]] ∧ (Tcp.sched (demoCfg .v2) 1 16 staleSched).dirty = false ∧
    (Tcp.sched (demoCfg .v2) 1 16 staleSched).exc = none := by decide +kernel

/-- … so that after the next packet was answered and finished a read is issued for a reply that nobody asked for, … -/
theorem C23_violated_read :
    let u := Tcp.sched (demoCfg .v2) 1 16 (staleSched ++ okSched)
    u.finished.flatten = u.dispatched ∧ u.flushDone = true ∧ u.recvOps.length = 1 := by decide +kernel

/-- … the next packet after that has two concurrent reads on the connection, which may each take a part of the reply, … -/
theorem C23_violated_two_reads : (Tcp.sched (demoCfg .v2) 1 16 (staleSched ++ okSched ++
    [.flushStart, .flushEnd, .dispatch (readPkt .v2) true, .ev (.sendDone true)])).recvOps.length = 2 := by decide +kernel

/-- … and if there is no next packet in time, the read times out and the next dispatch fails although every packet was answered. -/
theorem C23_violated_spurious :
    let u := Tcp.sched (demoCfg .v2) 1 16 (staleSched ++ okSched ++ [.flushStart, .flushEnd, .ev .timeout, .ev (.recvHdr none)])
    u.finished.flatten = u.dispatched ∧ u.exc = some (.transport 0) ∧
    (u.act (demoCfg .v2) 1 16 (.dispatch (readPkt .v2) true)).pc = .thrown := by decide +kernel

/-! ## What is taken from the stream -/

theorem Tcp.write_matched (n : Nat) (u : Tcp) : (u.write n).matched = u.matched := by
  rfl

theorem Tcp.handOver_matched (u : Tcp) : u.handOver.matched = u.matched := by
  unfold Tcp.handOver
  split <;> rfl

theorem Tcp.advance_matched (n N : Nat) (u : Tcp) : (u.advance n N).matched = u.matched := by
  have hp : u.pop.matched = u.matched := by
    unfold Tcp.pop
    dsimp only
    split <;> rfl
  unfold Tcp.advance
  dsimp only
  repeat' split
  all_goals first | exact hp | rfl

theorem Tcp.recvBody_matched (c : Cfg) (r : Option (List W)) (u : Tcp) : (u.recvBody c r).matched = u.matched ∨
    ∃ ws, r = some ws ∧ u.mid = some (.body ws.length) ∧ ws.length ≤ (u.reply.map Buf.words).sum ∧ (u.recvBody c r).matched = u.matched ++ [(u.reply, ws)] := by
  unfold Tcp.recvBody
  split
  · rename_i k hm
    split
    · exact .inl rfl
    · rename_i ws
      split
      · exact .inl rfl
      · rename_i hc
        have hk : ws.length = k := by omega
        subst hk
        have hl : ws.length ≤ (u.reply.map Buf.words).sum := by omega
        split
        · exact .inr ⟨ws, rfl, hm, hl, rfl⟩
        · split
          · exact .inl rfl
          · exact .inr ⟨ws, rfl, hm, hl, rfl⟩
        · exact .inl rfl
  · exact .inl rfl

theorem Tcp.ev_matched (c : Cfg) (n N : Nat) (u : Tcp) (e : TEv) : (u.ev c n N e).matched = u.matched ∨
    ∃ ws, e = .recvBody (some ws) ∧ u.mid = some (.body ws.length) ∧ ws.length ≤ (u.reply.map Buf.words).sum ∧ (u.ev c n N e).matched = u.matched ++ [(u.reply, ws)] := by
  unfold Tcp.ev
  split
  · exact .inl rfl
  · split
    · left; unfold Tcp.sendDone; split
      · rfl
      · dsimp only; repeat' split
        all_goals first | rfl | exact Tcp.handOver_matched _
    · left; unfold Tcp.recvHdr; split
      · rfl
      · dsimp only; repeat' split
        all_goals rfl
    · left; unfold Tcp.timeout; repeat' (first | rfl | split)
    · rename_i r _ _
      rcases u.recvBody_matched c r with h | ⟨ws, rfl, h2⟩
      · exact .inl h
      · exact .inr ⟨ws, rfl, h2⟩
    · left; unfold Tcp.recvEnd; split
      all_goals first | rfl | exact Tcp.advance_matched _ _ _
    · exact .inl rfl

/-- **C21.** The body of a reply is taken from the stream only if it is as long as its header announced and there is room for all of it in the
slots of the packets it is taken for: nothing is dropped, and nothing of the next reply is taken. Without hypotheses on the schedule. -/
theorem C21_body (c : Cfg) (n N : Nat) (u : Tcp) (a : TAct) :
    (u.act c n N a).matched = u.matched ∨ (u.act c n N a).matched = [] ∨
    ∃ ws, a = .ev (.recvBody (some ws)) ∧ u.mid = some (.body ws.length) ∧ ws.length ≤ (u.reply.map Buf.words).sum ∧
      (u.act c n N a).matched = u.matched ++ [(u.reply, ws)] := by
  cases a with
  | dispatch b conn =>
    left
    have key : ∀ u', ((∃ x, u.dispatch n N b conn = .ok x u') ∨ ∃ x, u.dispatch n N b conn = .exc x u') → u'.matched = u.matched := by
      intro u' h
      unfold Tcp.dispatch at h
      dsimp only at h
      repeat' split at h
      all_goals
        rcases h with ⟨x, h⟩ | ⟨x, h⟩ <;> cases h <;> rfl
    unfold Tcp.act
    dsimp only
    split
    · rfl
    · split
      · split
        · rename_i h; exact key _ (.inl ⟨_, h⟩)
        · rename_i h; exact key _ (.inr ⟨_, h⟩)
        · rfl
      · rfl
  | flushStart =>
    left
    simp only [Tcp.act, Tcp.flushStart]
    repeat' (first | rfl | split)
  | flushEnd =>
    left
    have key : ∀ u', ((∃ x, u.flushEnd = .ok x u') ∨ ∃ x, u.flushEnd = .exc x u') → u'.matched = u.matched := by
      intro u' h
      unfold Tcp.flushEnd at h
      repeat' split at h
      all_goals
        rcases h with ⟨x, h⟩ | ⟨x, h⟩ <;> cases h <;> rfl
    unfold Tcp.act
    dsimp only
    split
    · rfl
    · split
      · split
        · rename_i h; exact key _ (.inl ⟨_, h⟩)
        · rename_i h; exact key _ (.inr ⟨_, h⟩)
        · rfl
      · rfl
  | handler =>
    simp only [Tcp.act]
    repeat' split
    · exact .inl rfl
    · exact .inr (.inl rfl)
    · exact .inl rfl
  | ev e =>
    rcases Tcp.ev_matched c n N u e with h | ⟨ws, rfl, h⟩
    · exact .inl h
    · exact .inr (.inr ⟨ws, rfl, h⟩)

theorem C21_fits (c : Cfg) (n N : Nat) (as : List TAct) : ∀ x ∈ (Tcp.sched c n N as).matched, x.2.length ≤ (x.1.map Buf.words).sum := by
  unfold Tcp.sched
  have : ∀ u : Tcp, (∀ x ∈ u.matched, x.2.length ≤ (x.1.map Buf.words).sum) →
      ∀ x ∈ (as.foldl (Tcp.act c n N) u).matched, x.2.length ≤ (x.1.map Buf.words).sum := by
    induction as with
    | nil => exact fun u h => h
    | cons a as ih =>
      intro u h
      refine ih _ ?_
      rcases C21_body c n N u a with e | e | ⟨ws, _, _, hl, e⟩
      · rw [e]; exact h
      · rw [e]; simp
      · rw [e]
        intro x hx
        rcases List.mem_append.mp hx with hx | hx
        · exact h x hx
        · simp at hx; subst hx; exact hl
  exact this _ (by simp [Tcp.init])

/-- A schedule in which a reply is taken. -/
example : ((Tcp.sched (demoCfg .v2) 1 16 okSched).matched).length ≠ 0 := by decide +kernel

end Verif
