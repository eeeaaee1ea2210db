import Verif.Model.Udp
/-!
# The TCP client

`TCP<InnerProtocol, nr_buffers_per_send>`, `/repo/uhal/uhal/src/common/ProtocolTCP.cpp`, as a state machine. Line
numbers without a file name refer to that file. The parameters are `n` (`nr_buffers_per_send`: 1 for IPbus over TCP, 3 for
the ControlHub, 654-658) and `maxN` (`getMaxNumberOfBuffers()`).

Two threads, as in `Verif.Model.Udp`: the user thread (`implementDispatch`, `Flush`, `dispatchExceptionHandler`) and the
network thread, which runs the callbacks of boost::asio one at a time. A section of code under `mTransportLayerMutex` is one
step. `read_callback` blocks in a synchronous `boost::asio::read` in the middle (455): while it does, the network thread
runs nothing else, in particular not `CheckDeadline`.

Simplifications:
* `dispatchExceptionHandler` (593-629) takes no lock. It is one step here; if a callback is in progress or still to come
  at that moment the ghost `dirty` is set.
* Completion of a pending socket operation can be reported with any result at any time. The flags in `sendOps` and
  `recvOps` record that the socket was closed with the operation pending, which makes it complete with an error.
* In `read_callback` the unlocked work after the body has arrived (scattering, validation) is one step. `boost::asio::read`
  stops when all reply slots are full, so a byte counter larger than their total size is an error.
* Waiting for the condition variable and the locked section after it (581-588) are one step.
* Timers: only whether a deadline is set (`armed`) or has passed and been reported (`inf`, `pos_infin`).
* `TcpTimeout`, `ASIOTcpError` and `TcpConnectionFailure` are `Exc.transport 0`.
* Replies are whole words. Statistics (`mRTTStats` and so on) and log messages are left out.
-/

set_option autoImplicit false

namespace Verif

/-- Where `read_callback` is, between its locked sections. -/
inductive TMid
  /-- in the synchronous read of the body; the header announced this many words (433-455) -/
  | body (k : Nat)
  /-- an error was reported, the exception is not set yet (400, 457) -/
  | failed
  /-- validation of a packet failed (with these words of the body), the exception is not set yet (491-502) -/
  | invalid (e : Exc) (b : Buf) (ws : List W)
  /-- the exception is set, the condition variable is not notified yet (504-508) -/
  | notify
  /-- before the last section (511) -/
  | last
deriving DecidableEq

/-- Where the user thread is. -/
inductive TPc
  /-- outside of the transport -/
  | idle
  /-- in `Flush`, before or in `WaitOnConditionalVariable` -/
  | flushing
  /-- an exception was thrown to `ClientInterface`, which will call the exception handler (ClientInterface.cpp:143-180, 339-360) -/
  | thrown
deriving DecidableEq

/-- What is written to the connection by one `async_write`: the length and the words behind it. -/
structure TcpFrame where
  count : W
  words : List W

/-- State of the client. -/
structure Tcp where
  /-- `mDispatchQueue` -/
  dispQ : List Buf
  /-- `mReplyQueue` -/
  replyQ : List (List Buf)
  /-- `mDispatchBuffers` -/
  disp : List Buf
  /-- `mReplyBuffers.first` -/
  reply : List Buf
  /-- `mPacketsInFlight` -/
  inFlight : Nat
  /-- `mFlushStarted` -/
  flushStarted : Bool
  /-- `mFlushDone` -/
  flushDone : Bool
  /-- `mAsynchronousException` -/
  exc : Option Exc
  /-- `mSocket.is_open()` -/
  sock : Bool
  /-- `mDeadlineTimer` -/
  deadline : Deadline
  /-- pending `async_write` operations -/
  sendOps : List Bool
  /-- pending `async_read` operations -/
  recvOps : List Bool
  /-- `read_callback` in progress -/
  mid : Option TMid
  /-- the user thread -/
  pc : TPc
  /-- memory of the user's objects -/
  heap : Heap
  /-- undefined behaviour has happened -/
  crashed : Bool
  /-- ghost: packets given to `implementDispatch` since the last run of the exception handler -/
  dispatched : List Buf
  /-- ghost: chunks of packets sent since then -/
  sent : List (List Buf)
  /-- ghost: what was written to the connection since then -/
  wire : List TcpFrame
  /-- ghost: chunks completely processed since then -/
  finished : List (List Buf)
  /-- ghost: chunks with the bodies received for them since then -/
  matched : List (List Buf × List W)
  /-- ghost: bodies received since then -/
  rx : List (List W)
  /-- ghost: replies validated in the whole life of the client -/
  log : List Rx
  /-- ghost: what happened to the packets in the whole life of the client: a reply, or a failure of the transport -/
  outcomes : List (Buf × Option (List W))
  /-- ghost: the exception handler ran with operations pending -/
  dirty : Bool
  /-- ghost: the exception handler ran with entries in `mReplyQueue` -/
  stale : Bool

/-- Freshly constructed client, 57-88: not connected. -/
def Tcp.init : Tcp :=
  { dispQ := [], replyQ := [], disp := [], reply := [], inFlight := 0, flushStarted := false, flushDone := true, exc := none
    sock := false, deadline := .armed, sendOps := [], recvOps := [], mid := none, pc := .idle, heap := .fresh, crashed := false
    dispatched := [], sent := [], wire := [], finished := [], matched := [], rx := [], log := [], outcomes := []
    dirty := false, stale := false }

/-- Packets not answered yet (ghost: used for `outcomes` only). -/
def Tcp.waiting (u : Tcp) : List Buf :=
  (if u.mid = some .last then [] else u.reply) ++ (u.replyQ.flatten ++ (u.disp ++ u.dispQ))

/-- Ghost: a failure of the transport is booked on the oldest of them. -/
def Tcp.lost (u : Tcp) : List (Buf × Option (List W)) := (u.waiting.take 1).map fun b => (b, none)

/-- `mSocket.close()`: pending operations are cancelled. -/
def Tcp.close (u : Tcp) : Tcp :=
  { u with sock := false, sendOps := u.sendOps.map fun _ => true, recvOps := u.recvOps.map fun _ => true }

/-- The frame for some packets, 209-225: `mSendByteCounter` is the sum of the `sendCounter()`s, modulo 2^32. -/
def mkFrame (bs : List Buf) : TcpFrame :=
  ⟨bs.foldl (fun s b => s + BitVec.ofNat 32 (4 * b.send.length)) 0#32, bs.flatMap (·.send)⟩

/-- `write`, 205-243. On a closed socket the operation fails. -/
def Tcp.write (n : Nat) (u : Tcp) : Tcp :=
  let new := u.dispQ.take n
  { u with
    flushDone := false, disp := u.disp ++ new, dispQ := u.dispQ.drop n, deadline := .armed, sendOps := u.sendOps ++ [!u.sock]
    inFlight := (u.inFlight + (u.disp ++ new).length) % 2 ^ 32, sent := u.sent ++ [new], wire := u.wire ++ [mkFrame new] }

/-- `read`, 324-344. -/
def Tcp.read (u : Tcp) : Tcp := { u with deadline := .armed, recvOps := u.recvOps ++ [!u.sock] }

/-- `mAsynchronousException = e; NotifyConditionalVariable ( true )`. -/
def Tcp.fail (u : Tcp) (e : Exc) : Tcp := { u with exc := some e, flushDone := true }

/-- The condition under which the callbacks call `write`, 315, 525. -/
def Tcp.canWrite (n maxN : Nat) (u : Tcp) : Bool :=
  decide ((if u.flushStarted then 1 else n) ≤ u.dispQ.length) && decide (u.inFlight < maxN)

/-- The chunk that was sent waits for its reply, 303-313. -/
def Tcp.handOver (u : Tcp) : Tcp :=
  if u.reply ≠ [] then { u with replyQ := u.replyQ ++ [u.disp], disp := [] }
  else { { u with reply := u.disp }.read with disp := [] }

/-- `write_callback`, 248-320. `ok`: no error and all bytes transferred. -/
def Tcp.sendDone (n maxN : Nat) (ok : Bool) (u : Tcp) : Tcp :=
  match u.sendOps with
  | [] => u
  | _ :: ops =>
    let u := { u with sendOps := ops }
    if u.exc.isSome then { u with flushDone := true }
    else if u.deadline = .inf then { u.fail (.transport 0) with outcomes := u.outcomes ++ u.lost }
    else if ok = false then { u.close.fail (.transport 0) with outcomes := u.outcomes ++ u.lost }
    else if u.handOver.canWrite n maxN then u.handOver.write n else u.handOver

/-- `read_callback` up to the synchronous read, 351-455. `r`: the length in words that the header announces, or an error. -/
def Tcp.recvHdr (r : Option Nat) (u : Tcp) : Tcp :=
  match u.recvOps with
  | [] => u
  | _ :: ops =>
    let u := { u with recvOps := ops }
    if u.exc.isSome then { u with flushDone := true }
    else if u.deadline = .inf then { u.fail (.transport 0) with outcomes := u.outcomes ++ u.lost }
    else match r with
    | none => { u with mid := some .failed }
    | some k => { u with mid := some (.body k) }

/-- Number of words of the reply to a packet that there is space for. -/
def Buf.words (b : Buf) : Nat := (b.reply.map (·.len)).sum

/-- Validation of the packets of a chunk, 487-509: stops at the first failure. `ws`: the body of the reply, for the ghost
log. -/
def chunkValidate (c : Cfg) : Heap → List Buf → List W → VOut × Heap × List Rx
  | h, [], _ => (.ok, h, [])
  | h, b :: bs, ws =>
    match clientValidate c h b with
    | (.ok, h') => let r := chunkValidate c h' bs (ws.drop b.words); (r.1, r.2.1, ⟨b, ws.take b.words, .ok⟩ :: r.2.2)
    | (o, h') => (o, h', [⟨b, ws.take b.words, o⟩])

/-- The body has arrived: it is scattered over the slots of all packets of the chunk (439-455), then they are validated. -/
def receiveChunk (c : Cfg) (h : Heap) (bs : List Buf) (ws : List W) : VOut × Heap × List Rx :=
  chunkValidate c (scatter h (bs.flatMap (·.reply)) ws) bs ws

/-- Outcomes of the packets that were validated successfully. -/
def okOutcomes (l : List Rx) : List (Buf × Option (List W)) :=
  (l.filter fun x => x.out = .ok).map fun x => (x.buf, some x.reply)

/-- The synchronous read returns, 455-509, with the body or an error. -/
def Tcp.recvBody (c : Cfg) (r : Option (List W)) (u : Tcp) : Tcp :=
  match u.mid with
  | some (.body k) =>
    match r with
    | none => { u with mid := some .failed }
    | some ws =>
      if ws.length ≠ k ∨ (u.reply.map Buf.words).sum < k then { u with mid := some .failed }
      else
        match receiveChunk c u.heap u.reply ws with
        | (.ok, h, l) => { u with heap := h, mid := some .last, matched := u.matched ++ [(u.reply, ws)], rx := u.rx ++ [ws],
                                  log := u.log ++ l, outcomes := u.outcomes ++ okOutcomes l }
        | (.err e, h, l) =>
          match l.getLast? with
          | none => { u with crashed := true }
          | some x => { u with heap := h, mid := some (.invalid e x.buf x.reply), matched := u.matched ++ [(u.reply, ws)],
                               rx := u.rx ++ [ws], log := u.log ++ l, outcomes := u.outcomes ++ okOutcomes l }
        | (.ub, _, _) => { u with crashed := true }
  | _ => u

/-- The chunk whose reply has been processed is removed and the next reply is awaited, 512-523. -/
def Tcp.pop (u : Tcp) : Tcp :=
  let u := { u with inFlight := (u.inFlight + 2 ^ 32 - u.reply.length) % 2 ^ 32, finished := u.finished ++ [u.reply] }
  match u.replyQ with
  | b :: q => { u with reply := b, replyQ := q }.read
  | [] => { u with reply := [] }

/-- The last section of `read_callback`, 511-535. -/
def Tcp.advance (n maxN : Nat) (u : Tcp) : Tcp :=
  let u := if u.pop.disp = [] && u.pop.canWrite n maxN then u.pop.write n else u.pop
  if u.disp = [] && u.reply = [] then { u with deadline := .armed, flushDone := true } else u

/-- The rest of `read_callback`, 400-431, 457-484, 491-535. -/
def Tcp.recvEnd (n maxN : Nat) (u : Tcp) : Tcp :=
  match u.mid with
  | some .failed => { { u.close with mid := none }.fail (.transport 0) with outcomes := u.outcomes ++ u.lost }
  | some (.invalid e b ws) => { u with mid := some .notify, exc := some e, outcomes := u.outcomes ++ [(b, some ws)] }
  | some .notify => { u with mid := none, flushDone := true }
  | some .last => { u with mid := none }.advance n maxN
  | _ => u

/-- `CheckDeadline`, 540-565, when the deadline has passed. -/
def Tcp.timeout (u : Tcp) : Tcp :=
  match u.deadline with
  | .armed => { u.close with deadline := .inf }
  | .inf => u

/-- Steps of the network thread. -/
inductive TEv
  | sendDone (ok : Bool)
  | recvHdr (r : Option Nat)
  | recvBody (r : Option (List W))
  | recvEnd
  | timeout

/-- A step of the network thread, which finishes one callback before it begins the next one. -/
def Tcp.ev (c : Cfg) (n maxN : Nat) (u : Tcp) (e : TEv) : Tcp :=
  if u.crashed then u
  else match e, u.mid with
  | .sendDone ok, none => u.sendDone n maxN ok
  | .recvHdr r, none => u.recvHdr r
  | .timeout, none => u.timeout
  | .recvBody r, some _ => u.recvBody c r
  | .recvEnd, some _ => u.recvEnd n maxN
  | _, _ => u

/-- `implementDispatch`, 121-143, and `connect`, 161-200. `conn`: connecting succeeds. -/
def Tcp.dispatch (n maxN : Nat) (b : Buf) (conn : Bool) (u : Tcp) : Out Tcp Unit :=
  match u.exc with
  | some e => .exc e { u with pc := .thrown }
  | none =>
    if u.sock = false ∧ conn = false then .exc (.transport 0) { u with pc := .thrown, deadline := .armed }
    else
      let u := if u.sock then u else { u with sock := true, deadline := .armed }
      let u := { u with flushStarted := false, dispQ := u.dispQ ++ [b], dispatched := u.dispatched ++ [b] }
      .ok () (if u.disp = [] && (decide (n ≤ u.dispQ.length) && decide (u.inFlight < maxN)) then u.write n else u)

/-- `Flush` up to the wait, 569-579. -/
def Tcp.flushStart (n : Nat) (u : Tcp) : Tcp :=
  let u := { u with flushStarted := true, pc := .flushing }
  if u.dispQ ≠ [] ∧ u.disp = [] then u.write n else u

/-- `Flush` from the wait on, 581-588. -/
def Tcp.flushEnd (u : Tcp) : Out Tcp Unit :=
  if u.flushDone then
    match u.exc with
    | some e => .exc e { u with pc := .thrown }
    | none => .ok () { u with pc := .idle }
  else .loops

/-- `dispatchExceptionHandler`, 593-629. The entries of `mReplyQueue` are emptied but not removed (619-620). -/
def Tcp.handler (u : Tcp) : Tcp :=
  { u.close with
    flushDone := true, exc := none, dispQ := [], replyQ := u.replyQ.map fun _ => [], inFlight := 0, disp := [], reply := [], pc := .idle
    dispatched := [], sent := [], wire := [], finished := [], matched := [], rx := []
    dirty := u.dirty || !u.sendOps.isEmpty || !u.recvOps.isEmpty || u.mid.isSome
    stale := u.stale || !u.replyQ.isEmpty }

/-- One step of a schedule. -/
inductive TAct
  | dispatch (b : Buf) (conn : Bool)
  | flushStart
  | flushEnd
  | handler
  | ev (e : TEv)

/-- A step. Steps that the user thread cannot make in its present position, or that have to wait, change nothing. -/
def Tcp.act (c : Cfg) (n maxN : Nat) (u : Tcp) : TAct → Tcp
  | .dispatch b conn =>
    if u.crashed then u
    else if u.pc = .idle then
      match u.dispatch n maxN b conn with
      | .ok _ u' => u'
      | .exc _ u' => u'
      | _ => u
    else u
  | .flushStart => if u.crashed then u else if u.pc = .idle then u.flushStart n else u
  | .flushEnd =>
    if u.crashed then u
    else if u.pc = .flushing then
      match u.flushEnd with
      | .ok _ u' => u'
      | .exc _ u' => u'
      | _ => u
    else u
  | .handler => if u.crashed then u else if u.pc = .thrown then u.handler else u
  | .ev e => u.ev c n maxN e

/-- All schedules. -/
def Tcp.sched (c : Cfg) (n maxN : Nat) (as : List TAct) : Tcp := as.foldl (Tcp.act c n maxN) Tcp.init

/-- The client as a transport of the packet builder: before each step of the user thread the network thread makes the
steps that the next entry of `plan` prescribes (any interleaving); the flag is the result of a `connect`. -/
structure TcpT where
  u : Tcp
  plan : List (List TEv × Bool)
  /-- ghost: length of `u.outcomes` at the last call -/
  seen : Nat
  /-- ghost: by how much it had grown at each `implementDispatch`, before and in it -/
  counts : List (Nat × Nat)
  /-- ghost: all packets given to `implementDispatch` -/
  ever : List Buf

def TcpT.init (plan : List (List TEv × Bool)) : TcpT := ⟨.init, plan, 0, [], []⟩

def TcpT.evs (t : TcpT) : List TEv := (t.plan.headD ([], true)).1
def TcpT.conn (t : TcpT) : Bool := (t.plan.headD ([], true)).2

/-- `implementDispatch` throws: the exception of a callback, or the one of `connect`, which is booked (ghost) on the oldest
packet that is not answered. -/
def TcpT.threw (t : TcpT) (b : Buf) (u u' : Tcp) : TcpT :=
  if u.exc.isSome then ⟨u', t.plan.tail, u.outcomes.length, t.counts ++ [(u.outcomes.length - t.seen, 0)], t.ever ++ [b]⟩
  else ⟨{ u' with outcomes := u.outcomes ++ ((u.waiting ++ [b]).take 1).map fun x => (x, none) }, t.plan.tail, u.outcomes.length + 1,
    t.counts ++ [(u.outcomes.length - t.seen, 1)], t.ever ++ [b]⟩

def tcpT (c : Cfg) (n maxN : Nat) : Transport TcpT where
  disp t b :=
    let u := t.evs.foldl (Tcp.ev c n maxN) t.u
    if u.crashed then .ub
    else match u.dispatch n maxN b t.conn with
    | .ok _ u' => .ok () ⟨u', t.plan.tail, u.outcomes.length, t.counts ++ [(u.outcomes.length - t.seen, 0)], t.ever ++ [b]⟩
    | .exc e u' => .exc e (t.threw b u u')
    | .ub => .ub
    | .loops => .loops
  flush t :=
    let u := t.evs.foldl (Tcp.ev c n maxN) t.u
    if u.crashed then .ub
    else
      let t := { t with u := u.flushStart n, plan := t.plan.tail }
      let u := t.evs.foldl (Tcp.ev c n maxN) t.u
      if u.crashed then .ub
      else match u.flushEnd with
      | .ok _ u' => .ok () { t with u := u', plan := t.plan.tail, seen := u.outcomes.length }
      | .exc e u' => .exc e { t with u := u', plan := t.plan.tail, seen := u.outcomes.length }
      | .ub => .ub
      | .loops => .loops
  handler t := { t with u := t.u.handler }

end Verif
