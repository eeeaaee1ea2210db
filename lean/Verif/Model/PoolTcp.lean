import Verif.Model.Tcp
/-!
# The pool of packets under the TCP client

`TcpP` is the client of `Verif/Model/Tcp.lean` with objects of class `Buffers` that have names and contents (as in
`Verif/Model/Pool.lean` for UDP): the queues hold names, and contents are looked up when a packet is sent, or a reply is
distributed or validated. The packets of a chunk are validated one after the other, and each of them goes back to the pool
before the next one is validated (ProtocolTCP.cpp:487-509, ClientInterface.cpp:187-201), while the user thread may take it and write
to it. Line numbers without a file name refer to ProtocolTCP.cpp.

Simplifications: those of `Verif/Model/Tcp.lean`, except that distribution and validation are separate steps. If the exception
handler runs while `read_callback` is in the loop over `mReplyBuffers.first` (487), which it would empty, that is undefined
behaviour (`crashed`).
-/

set_option autoImplicit false

namespace Verif

/-- Where `read_callback` is, between its locked sections. -/
inductive PMid
  /-- in the synchronous read of the body; the header announced this many words (433-455) -/
  | body (k : Nat)
  /-- an error was reported, the exception is not set yet (400, 457) -/
  | failed
  /-- in the loop over the packets (487): those still to be validated, the words for them, and (ghost) all words of the body -/
  | check (todo : List Nat) (ws body : List W)
  /-- validation of a packet failed, the exception is not set yet (491-502); contents and words are ghosts -/
  | invalid (e : Exc) (b : Buf) (ws : List W)
  /-- the exception is set, the condition variable is not notified yet (504-508) -/
  | notify
deriving DecidableEq

/-- State of the client. -/
structure TcpP where
  /-- `mBuffers`, include/uhal/ClientInterface.hpp:400 -/
  pool : List Nat
  /-- ghost: number of objects constructed so far, the name of the next one -/
  made : Nat
  /-- `mCurrentBuffers`, include/uhal/ClientInterface.hpp:408 -/
  cur : Option Nat
  /-- contents of the objects -/
  mem : Nat → Buf
  /-- `mDispatchQueue` -/
  dispQ : List Nat
  /-- `mReplyQueue` -/
  replyQ : List (List Nat)
  /-- `mDispatchBuffers` -/
  disp : List Nat
  /-- `mReplyBuffers.first` -/
  reply : List Nat
  /-- the parameter `aBuffers` of `ClientInterface::validate`, ClientInterface.cpp:187, until it has been given back -/
  held : Option Nat
  /-- `mPacketsInFlight` -/
  inFlight : Nat
  /-- `mFlushStarted` -/
  flushStarted : Bool
  /-- `mFlushDone` -/
  flushDone : Bool
  /-- `mAsynchronousException` -/
  exc : Option Exc
  /-- `mSocket.is_open()` -/
  sock : Bool
  /-- `mDeadlineTimer` -/
  deadline : Deadline
  /-- pending `async_write` operations -/
  sendOps : List Bool
  /-- pending `async_read` operations -/
  recvOps : List Bool
  /-- `read_callback` in progress -/
  mid : Option PMid
  /-- the user thread -/
  pc : TPc
  /-- memory of the user's objects -/
  heap : Heap
  /-- undefined behaviour has happened -/
  crashed : Bool
  /-- ghost: contents of the packets given to `implementDispatch`, when they were, since the last run of the exception
  handler -/
  dispatched : List Buf
  /-- ghost: contents of the chunks sent since then, when they were sent -/
  sent : List (List Buf)
  /-- ghost: replies validated in the whole life of the client, with the contents of the packets at that moment -/
  log : List Rx

namespace TcpP

/-- Freshly constructed client, 57-88. -/
def init : TcpP :=
  { pool := [], made := 0, cur := none, mem := fun _ => .empty, dispQ := [], replyQ := [], disp := [], reply := [], held := none, inFlight := 0
    flushStarted := false, flushDone := true, exc := none, sock := false, deadline := .armed, sendOps := [], recvOps := [], mid := none, pc := .idle
    heap := .fresh, crashed := false, dispatched := [], sent := [], log := [] }

/-- Other contents of object `i`. -/
def put (p : TcpP) (i : Nat) (b : Buf) : TcpP := { p with mem := fun j => if j = i then b else p.mem j }

/-- `if ( mBuffers.size() == 0 )` ten objects are constructed, ClientInterface.cpp:346-352. -/
def stock (p : TcpP) : TcpP :=
  match p.pool with
  | [] => { p with pool := List.range' p.made 10, made := p.made + 10 }
  | _ => p

/-- `ClientInterface::updateCurrentBuffers` up to the preamble, ClientInterface.cpp:339-357. -/
def take (p : TcpP) : TcpP :=
  match p.cur with
  | some _ => p
  | none =>
    match p.stock.pool with
    | [] => p.stock
    | i :: is => { p.stock with pool := is, cur := some i }.put i .empty

/-- The user thread writes to the current object (`Buffers::send`, `receive`, `add`, Buffers.cpp:66-94). -/
def fill (f : Buf → Buf) (p : TcpP) : TcpP :=
  match p.cur with
  | none => p
  | some i => p.put i (f (p.mem i))

/-- `mSocket.close()`: pending operations are cancelled. -/
def close (p : TcpP) : TcpP :=
  { p with sock := false, sendOps := p.sendOps.map fun _ => true, recvOps := p.recvOps.map fun _ => true }

/-- `write`, 205-243. -/
def write (n : Nat) (p : TcpP) : TcpP :=
  { p with
    flushDone := false, disp := p.disp ++ p.dispQ.take n, dispQ := p.dispQ.drop n, deadline := .armed, sendOps := p.sendOps ++ [!p.sock]
    inFlight := (p.inFlight + (p.disp ++ p.dispQ.take n).length) % 2 ^ 32, sent := p.sent ++ [(p.dispQ.take n).map p.mem] }

/-- `read`, 324-344. -/
def read (p : TcpP) : TcpP := { p with deadline := .armed, recvOps := p.recvOps ++ [!p.sock] }

/-- `mAsynchronousException = e; NotifyConditionalVariable ( true )`. -/
def fail (p : TcpP) (e : Exc) : TcpP := { p with exc := some e, flushDone := true }

/-- The condition under which the callbacks call `write`, 315, 525. -/
def canWrite (n maxN : Nat) (p : TcpP) : Bool :=
  decide ((if p.flushStarted then 1 else n) ≤ p.dispQ.length) && decide (p.inFlight < maxN)

/-- The chunk that was sent waits for its reply, 303-313. -/
def handOver (p : TcpP) : TcpP :=
  if p.reply ≠ [] then { p with replyQ := p.replyQ ++ [p.disp], disp := [] }
  else { { p with reply := p.disp }.read with disp := [] }

/-- `write_callback`, 248-320. -/
def sendDone (n maxN : Nat) (ok : Bool) (p : TcpP) : TcpP :=
  match p.sendOps with
  | [] => p
  | _ :: ops =>
    let p := { p with sendOps := ops }
    if p.exc.isSome then { p with flushDone := true }
    else if p.deadline = .inf then p.fail (.transport 0)
    else if ok = false then p.close.fail (.transport 0)
    else if p.handOver.canWrite n maxN then p.handOver.write n else p.handOver

/-- `read_callback` up to the synchronous read, 351-455. -/
def recvHdr (r : Option Nat) (p : TcpP) : TcpP :=
  match p.recvOps with
  | [] => p
  | _ :: ops =>
    let p := { p with recvOps := ops }
    if p.exc.isSome then { p with flushDone := true }
    else if p.deadline = .inf then p.fail (.transport 0)
    else match r with
    | none => { p with mid := some .failed }
    | some k => { p with mid := some (.body k) }

/-- The synchronous read returns, 439-455: the body is in the memory of the user's objects. -/
def recvBody (r : Option (List W)) (p : TcpP) : TcpP :=
  match p.mid with
  | some (.body k) =>
    match r with
    | none => { p with mid := some .failed }
    | some ws =>
      if ws.length ≠ k ∨ ((p.reply.map p.mem).map Buf.words).sum < k then { p with mid := some .failed }
      else { p with heap := scatter p.heap ((p.reply.map p.mem).flatMap (·.reply)) ws, mid := some (.check p.reply ws ws) }
  | _ => p

/-- `ClientInterface::validate ( lBuf )` for the next packet up to `returnBufferToPool`, 487-491 and ClientInterface.cpp:187-198. -/
def valid (c : Cfg) (p : TcpP) : TcpP :=
  match p.mid, p.held with
  | some (.check (i :: is) ws body), none =>
    match clientValidate c p.heap (p.mem i) with
    | (.ok, h) => { p with heap := h, held := some i, mid := some (.check is (ws.drop (p.mem i).words) body), log := p.log ++ [⟨p.mem i, ws.take (p.mem i).words, .ok⟩] }
    | (.err e, h) => { p with heap := h, held := some i, mid := some (.invalid e (p.mem i) (ws.take (p.mem i).words)),
                              log := p.log ++ [⟨p.mem i, ws.take (p.mem i).words, .err e⟩] }
    | (.ub, _) => { p with crashed := true }
  | _, _ => p

/-- `returnBufferToPool ( aBuffers )`, ClientInterface.cpp:200, 220-229. `mReplyBuffers.first` still points to the object. -/
def giveBack (p : TcpP) : TcpP :=
  match p.held with
  | none => p
  | some i => { p with pool := p.pool ++ [i], held := none }

/-- The chunk whose reply has been processed is removed and the next reply is awaited, 512-523. -/
def pop (p : TcpP) : TcpP :=
  let p := { p with inFlight := (p.inFlight + 2 ^ 32 - p.reply.length) % 2 ^ 32 }
  match p.replyQ with
  | b :: q => { p with reply := b, replyQ := q }.read
  | [] => { p with reply := [] }

/-- The last section of `read_callback`, 511-535. -/
def advance (n maxN : Nat) (p : TcpP) : TcpP :=
  let p := if p.pop.disp = [] && p.pop.canWrite n maxN then p.pop.write n else p.pop
  if p.disp = [] && p.reply = [] then { p with deadline := .armed, flushDone := true } else p

/-- The rest of `read_callback`, 400-431, 457-484, 491-535. -/
def recvEnd (n maxN : Nat) (p : TcpP) : TcpP :=
  match p.mid with
  | some .failed => { p.close with mid := none }.fail (.transport 0)
  | some (.invalid e _ _) => { p with mid := some .notify, exc := some e }
  | some .notify => { p with mid := none, flushDone := true }
  | some (.check [] _ _) => { p with mid := none }.advance n maxN
  | _ => p

/-- `CheckDeadline`, 540-565, when the deadline has passed. -/
def timeout (p : TcpP) : TcpP :=
  match p.deadline with
  | .armed => { p.close with deadline := .inf }
  | .inf => p

/-- Steps of the network thread. -/
inductive Net
  | sendDone (ok : Bool)
  | recvHdr (r : Option Nat)
  | recvBody (r : Option (List W))
  | valid
  | giveBack
  | recvEnd
  | timeout

/-- A step of the network thread, which finishes one callback before it begins the next one. -/
def net (c : Cfg) (n maxN : Nat) (p : TcpP) (e : Net) : TcpP :=
  match e, p.mid with
  | .sendDone ok, none => p.sendDone n maxN ok
  | .recvHdr r, none => p.recvHdr r
  | .timeout, none => p.timeout
  | .recvBody r, some _ => p.recvBody r
  | .valid, some _ => p.valid c
  | .giveBack, _ => p.giveBack
  | .recvEnd, some _ => if p.held.isSome then p else p.recvEnd n maxN
  | _, _ => p

/-- `implementDispatch ( mCurrentBuffers ); mCurrentBuffers.reset();`, 121-143, 161-200 and ClientInterface.cpp:170-171, 311-312. -/
def dispatch (n maxN : Nat) (conn : Bool) (p : TcpP) : TcpP :=
  match p.cur with
  | none => p
  | some i =>
    match p.exc with
    | some _ => { p with pc := .thrown }
    | none =>
      if p.sock = false ∧ conn = false then { p with pc := .thrown, deadline := .armed }
      else
        let p := if p.sock then p else { p with sock := true, deadline := .armed }
        let p := { p with cur := none, flushStarted := false, dispQ := p.dispQ ++ [i], dispatched := p.dispatched ++ [p.mem i] }
        if p.disp = [] && (decide (n ≤ p.dispQ.length) && decide (p.inFlight < maxN)) then p.write n else p

/-- `Flush` up to the wait, 569-579. -/
def flushStart (n : Nat) (p : TcpP) : TcpP :=
  let p := { p with flushStarted := true, pc := .flushing }
  if p.dispQ ≠ [] ∧ p.disp = [] then p.write n else p

/-- `Flush` from the wait on, 581-588. -/
def flushEnd (p : TcpP) : TcpP :=
  if p.flushDone then
    match p.exc with
    | some _ => { p with pc := .thrown }
    | none => { p with pc := .idle }
  else p

/-- `dispatchExceptionHandler`, 593-629: everything goes back to the pool; then `ClientInterface::deleteBuffers`, ClientInterface.cpp:363-383,
empties the pool and drops the current object. The entries of `mReplyQueue` are emptied but not removed (619-620). -/
def handler (p : TcpP) : TcpP :=
  match p.mid with
  | some (.check (_ :: _) _ _) => { p with crashed := true }
  | _ =>
    let p := { p.close with flushDone := true, exc := none, pc := .idle }
    let p := { p with pool := p.pool ++ p.dispQ ++ p.replyQ.flatten ++ p.disp ++ p.reply, dispQ := [], replyQ := p.replyQ.map fun _ => [],
                      inFlight := 0, disp := [], reply := [] }
    { p with pool := [], cur := none, dispatched := [], sent := [] }

/-- One step of a schedule. -/
inductive Act
  | take
  | fill (f : Buf → Buf)
  | dispatch (conn : Bool)
  | flushStart
  | flushEnd
  | handler
  | net (e : Net)

/-- A step. Steps that the user thread cannot make in its present position, or that have to wait, change nothing. -/
def act (c : Cfg) (n maxN : Nat) (p : TcpP) (a : Act) : TcpP :=
  if p.crashed then p
  else match a with
  | .take => p.take
  | .fill f => p.fill f
  | .dispatch conn => if p.pc = .idle then p.dispatch n maxN conn else p
  | .flushStart => if p.pc = .idle then p.flushStart n else p
  | .flushEnd => if p.pc = .flushing then p.flushEnd else p
  | .handler => if p.pc = .thrown then p.handler else p
  | .net e => p.net c n maxN e

/-- All schedules. -/
def run (c : Cfg) (n maxN : Nat) (as : List Act) : TcpP := as.foldl (act c n maxN) init

end TcpP
end Verif
