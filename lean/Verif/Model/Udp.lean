import Verif.Model.Link
/-!
# The UDP client

`UDP<InnerProtocol>`, `/repo/uhal/uhal/src/common/ProtocolUDP.cpp`, as a state machine. Line numbers without a file
name refer to that file.

Two threads: the user thread (`implementDispatch`, `Flush`, `dispatchExceptionHandler`) and the network thread, which
runs the callbacks of boost::asio one at a time. A section of code under `mTransportLayerMutex` is one step.
`read_callback` takes the lock two or three times; it is `recvBegin` (up to the end of validation) followed by one or two
steps `recvEnd`, with steps of the user thread possible in between.

Simplifications:
* `dispatchExceptionHandler` (458-493) takes no lock. It is one step here (statement by statement in `HandlerSteps`); if a callback is in progress or still to come
  at that moment the ghost `dirty` is set.
* Completion of a pending socket operation can be reported with any result at any time. The flags in `sendOps` and
  `recvOps` record that the socket was closed with the operation pending, which makes it complete with an error.
* In `read_callback` the unlocked work (scattering, validation) is done together with the first locked section. Nothing
  else in this model touches the memory it works on.
* `mSocket.open` (167-173) does not throw. Timers: only whether a deadline is set (`armed`) or has passed and been
  reported (`inf`, `pos_infin`); the deadline can pass at any time.
* `UdpTimeout` and `ASIOUdpError` are both `Exc.transport 0`.
* Replies are whole words.
-/

set_option autoImplicit false

namespace Verif

/-- Deadline timer: set to some time, or `pos_infin`. -/
inductive Deadline
  | armed
  | inf
deriving DecidableEq, Repr

/-- Where `read_callback` is, between its locked sections. -/
inductive Mid
  /-- an error was reported, the exception is not set yet (338-346) -/
  | failed
  /-- validation failed (with this datagram), the exception is not set yet (361-371) -/
  | invalid (e : Exc) (ws : List W)
  /-- before the last section (374) -/
  | last
deriving DecidableEq

/-- State of the client. -/
structure Udp where
  /-- `mDispatchQueue` -/
  dispQ : List Buf
  /-- `mReplyQueue` -/
  replyQ : List Buf
  /-- `mDispatchBuffers` -/
  disp : Option Buf
  /-- `mReplyBuffers` -/
  reply : Option Buf
  /-- `mPacketsInFlight` -/
  inFlight : Nat
  /-- `mFlushDone` -/
  flushDone : Bool
  /-- `mAsynchronousException` -/
  exc : Option Exc
  /-- `mSocket.is_open()` -/
  sock : Bool
  /-- `mDeadlineTimer` -/
  deadline : Deadline
  /-- pending `async_send_to` operations -/
  sendOps : List Bool
  /-- pending `async_receive` operations -/
  recvOps : List Bool
  /-- `read_callback` in progress -/
  mid : Option Mid
  /-- memory of the user's objects -/
  heap : Heap
  /-- undefined behaviour has happened -/
  crashed : Bool
  /-- ghost: packets given to `implementDispatch` since the last run of the exception handler -/
  dispatched : List Buf
  /-- ghost: packets sent since then -/
  sent : List Buf
  /-- ghost: packets completely processed since then -/
  finished : List Buf
  /-- ghost: packets with the datagrams scattered into them and the results of validation since then -/
  matched : List Rx
  /-- ghost: datagrams received since then -/
  rx : List (List W)
  /-- ghost: replies validated in the whole life of the client -/
  log : List Rx
  /-- ghost: what happened to the packets in the whole life of the client: a datagram, or a failure of the transport -/
  outcomes : List (Buf × Option (List W))
  /-- ghost: the exception handler ran with operations pending -/
  dirty : Bool

/-- Freshly constructed client, 57-93. -/
def Udp.init : Udp :=
  ⟨[], [], none, none, 0, true, none, true, .armed, [], [], none, .fresh, false, [], [], [], [], [], [], [], false⟩

/-- Packets not answered yet (ghost: used for `outcomes` only). -/
def Udp.waiting (u : Udp) : List Buf :=
  (if u.mid = some .last then [] else u.reply.toList) ++ (u.replyQ ++ (u.disp.toList ++ u.dispQ))

/-- Ghost: a failure of the transport is booked on the oldest of them. -/
def Udp.lost (u : Udp) : List (Buf × Option (List W)) := (u.waiting.take 1).map fun b => (b, none)

/-- `mSocket.close()`: pending operations are cancelled. -/
def Udp.close (u : Udp) : Udp :=
  { u with sock := false, sendOps := u.sendOps.map fun _ => true, recvOps := u.recvOps.map fun _ => true }

/-- `write`, 176-200. -/
def Udp.write (u : Udp) : Udp :=
  match u.disp with
  | none => { u with flushDone := false }
  | some b => { u with flushDone := false, deadline := .armed, sendOps := u.sendOps ++ [false], inFlight := (u.inFlight + 1) % 2 ^ 32,
                       sent := u.sent ++ [b] }

/-- `read`, 270-291. -/
def Udp.read (u : Udp) : Udp :=
  match u.reply with
  | none => { u with flushDone := true }
  | some _ => { u with deadline := .armed, recvOps := u.recvOps ++ [false] }

/-- `mAsynchronousException = e; NotifyConditionalVariable ( true )`. -/
def Udp.fail (u : Udp) (e : Exc) : Udp := { u with exc := some e, flushDone := true }

/-- The end of `write_callback`, 251-265, and of `read_callback`, 394-399: send the next packet, if there is one and the
limit allows it. -/
def Udp.next (maxN : Nat) (u : Udp) : Udp :=
  match u.dispQ with
  | b :: q => if u.inFlight ≠ maxN then { u with disp := some b, dispQ := q }.write else { u with disp := none }
  | [] => { u with disp := none }

/-- `write_callback`, 204-266. `ok`: no error and all bytes transferred. -/
def Udp.sendDone (maxN : Nat) (ok : Bool) (u : Udp) : Udp :=
  match u.sendOps with
  | [] => u
  | _ :: ops =>
    let u := { u with sendOps := ops }
    if u.exc.isSome then { u with flushDone := true }
    else if u.deadline = .inf then { u.fail (.transport 0) with outcomes := u.outcomes ++ u.lost }
    else match u.disp with
    | none => { u with crashed := true }
    | some b =>
      if ok = false then { u.close.fail (.transport 0) with outcomes := u.outcomes ++ u.lost }
      else (match u.reply with
        | some _ => { u with replyQ := u.replyQ ++ [b] }
        | none => { u with reply := some b }.read).next maxN

/-- `read_callback` up to the end of validation, 295-373. `r`: the datagram, or an error. -/
def Udp.recvBegin (c : Cfg) (r : Option (List W)) (u : Udp) : Udp :=
  match u.recvOps with
  | [] => u
  | _ :: ops =>
    let u := { u with recvOps := ops }
    if u.exc.isSome then { u with flushDone := true }
    else if u.deadline = .inf then { u.fail (.transport 0) with outcomes := u.outcomes ++ u.lost }
    else match u.reply with
    | none => u
    | some b =>
      match r with
      | none => { u.close with mid := some .failed }
      | some ws =>
        match receiveReply c u.heap b ws with
        | (.ok, h) => { u with heap := h, mid := some .last, matched := u.matched ++ [⟨b, ws, .ok⟩], rx := u.rx ++ [ws],
                               log := u.log ++ [⟨b, ws, .ok⟩], outcomes := u.outcomes ++ [(b, some ws)] }
        | (.err e, h) => { u with heap := h, mid := some (.invalid e ws), matched := u.matched ++ [⟨b, ws, .err e⟩], rx := u.rx ++ [ws],
                                  log := u.log ++ [⟨b, ws, .err e⟩] }
        | (.ub, _) => { u with crashed := true }

/-- The last section of `read_callback`, 374-405, if there is no exception. -/
def Udp.advance (maxN : Nat) (u : Udp) : Udp :=
  let fin := u.finished ++ u.reply.toList
  let u := match u.replyQ with
    | b :: q => { u with reply := some b, replyQ := q }.read
    | [] => { u with reply := none }
  let u := { u with inFlight := (u.inFlight + (2 ^ 32 - 1)) % 2 ^ 32, finished := fin }
  let u := if u.disp.isNone then u.next maxN else u
  if u.disp.isNone && u.reply.isNone then { u with deadline := .armed, flushDone := true } else u

/-- The rest of `read_callback`, 338-346, 361-405. -/
def Udp.recvEnd (maxN : Nat) (u : Udp) : Udp :=
  match u.mid with
  | none => u
  | some .failed => { { u with mid := none }.fail (.transport 0) with outcomes := u.outcomes ++ u.lost }
  | some (.invalid e ws) => { u with mid := some .last, exc := some e,
                                        outcomes := u.outcomes ++ u.reply.toList.map fun b => (b, some ws) }
  | some .last =>
    let u := { u with mid := none }
    if u.exc.isSome then { u with flushDone := true } else u.advance maxN

/-- `CheckDeadline`, 411-440, when the deadline has passed. -/
def Udp.timeout (u : Udp) : Udp :=
  match u.deadline with
  | .armed => { u.close with deadline := .inf }
  | .inf => u

/-- Steps of the network thread. -/
inductive Ev
  | sendDone (ok : Bool)
  | recvBegin (r : Option (List W))
  | recvEnd
  | timeout

/-- A step of the network thread, which finishes one callback before it begins the next one. -/
def Udp.ev (c : Cfg) (maxN : Nat) (u : Udp) (e : Ev) : Udp :=
  if u.crashed then u
  else match e, u.mid with
  | .sendDone ok, none => u.sendDone maxN ok
  | .recvBegin r, none => u.recvBegin c r
  | .timeout, none => u.timeout
  | .recvEnd, some _ => u.recvEnd maxN
  | _, _ => u

/-- `implementDispatch`, 121-146. -/
def Udp.dispatch (maxN : Nat) (b : Buf) (u : Udp) : Out Udp Unit :=
  match u.exc with
  | some e => .exc e u
  | none =>
    let u := { u with sock := true, dispatched := u.dispatched ++ [b] }
    if u.disp.isSome || u.inFlight == maxN then .ok () { u with dispQ := u.dispQ ++ [b] }
    else .ok () { u with disp := some b }.write

/-- `Flush`, 444-453: waits (`loops`) until `mFlushDone`, then throws or returns. -/
def Udp.flush (u : Udp) : Out Udp Unit :=
  if u.flushDone then
    match u.exc with
    | some e => .exc e u
    | none => .ok () u
  else .loops

/-- `dispatchExceptionHandler`, 458-493. -/
def Udp.handler (u : Udp) : Udp :=
  { u.close with
    flushDone := true, exc := none, dispQ := [], replyQ := [], inFlight := 0, disp := none, reply := none
    dispatched := [], sent := [], finished := [], matched := [], rx := []
    dirty := u.dirty || !u.sendOps.isEmpty || !u.recvOps.isEmpty || u.mid.isSome }

/-- One step of a schedule. -/
inductive Act
  | dispatch (b : Buf)
  | handler
  | ev (e : Ev)

/-- A step; `implementDispatch` that throws changes nothing. (`Flush` never changes the state.) -/
def Udp.act (c : Cfg) (maxN : Nat) (u : Udp) : Act → Udp
  | .dispatch b =>
    if u.crashed then u
    else match u.dispatch maxN b with
    | .ok _ u' => u'
    | _ => u
  | .handler => if u.crashed then u else u.handler
  | .ev e => u.ev c maxN e

/-- All schedules. -/
def Udp.sched (c : Cfg) (maxN : Nat) (as : List Act) : Udp := as.foldl (Udp.act c maxN) Udp.init

/-- The client as a transport of the packet builder: before each call the network thread makes the steps that the next
entry of `plan` prescribes (any interleaving). -/
structure UdpT where
  u : Udp
  plan : List (List Ev)
  /-- ghost: length of `u.outcomes` at the last call -/
  seen : Nat
  /-- ghost: by how much it had grown at each `implementDispatch` -/
  counts : List Nat

def udpT (c : Cfg) (maxN : Nat) : Transport UdpT where
  disp t b :=
    let u := (t.plan.headD []).foldl (Udp.ev c maxN) t.u
    let cs := t.counts ++ [u.outcomes.length - t.seen]
    if u.crashed then .ub
    else match u.dispatch maxN b with
    | .ok _ u' => .ok () ⟨u', t.plan.tail, u.outcomes.length, cs⟩
    | .exc e u' => .exc e ⟨u', t.plan.tail, u.outcomes.length, cs⟩
    | .ub => .ub
    | .loops => .loops
  flush t :=
    let u := (t.plan.headD []).foldl (Udp.ev c maxN) t.u
    if u.crashed then .ub
    else match u.flush with
    | .ok _ u' => .ok () ⟨u', t.plan.tail, u.outcomes.length, t.counts⟩
    | .exc e u' => .exc e ⟨u', t.plan.tail, u.outcomes.length, t.counts⟩
    | .ub => .ub
    | .loops => .loops
  handler t := { t with u := t.u.handler }

end Verif
