import Verif.Model.Udp
/-!
# The pool of packet buffers

In `Client` and `Udp` a packet is a value. In the code it is a `Buffers` object behind a `std::shared_ptr`; the same object
is filled by the user thread, read by the network thread, given back to the pool `mBuffers` by
`ClientInterface::validate` and taken from there for another packet. Here the queues of `UDP<InnerProtocol>` hold names of
objects (numbers) and the contents are in a memory `mem`. Whether the client behaves as if packets were values depends on
nobody else holding an object when it is cleared and filled again.

Paths are relative to `/repo/uhal/uhal/src/common`; lines without a file name are of `ProtocolUDP.cpp`. The simplifications
are those of `Udp` and these:
* Giving an object back (the end of `ClientInterface::validate`) is a step of its own, `giveBack`.
* `implementDispatch ( mCurrentBuffers ); mCurrentBuffers.reset();` is one step, like `dispatchExceptionHandler`.
* The user thread changes the contents of the current object in steps `fill` that are arbitrary functions.
* An object is deallocated when the last pointer to it goes. Names are not used again.
-/

set_option autoImplicit false

namespace Verif

/-- State of the client. -/
structure UdpP where
  /-- `mBuffers`, include/uhal/ClientInterface.hpp:400 -/
  pool : List Nat
  /-- ghost: number of objects constructed so far, the name of the next one -/
  made : Nat
  /-- `mCurrentBuffers`, include/uhal/ClientInterface.hpp:408 -/
  cur : Option Nat
  /-- contents of the objects -/
  mem : Nat → Buf
  /-- `mDispatchQueue` -/
  dispQ : List Nat
  /-- `mReplyQueue` -/
  replyQ : List Nat
  /-- `mDispatchBuffers` -/
  disp : Option Nat
  /-- `mReplyBuffers` -/
  reply : Option Nat
  /-- the parameter `aBuffers` of `ClientInterface::validate`, ClientInterface.cpp:187, until it has been given back -/
  held : Option Nat
  /-- `mPacketsInFlight` -/
  inFlight : Nat
  /-- `mFlushDone` -/
  flushDone : Bool
  /-- `mAsynchronousException` -/
  exc : Option Exc
  /-- `mSocket.is_open()` -/
  sock : Bool
  /-- `mDeadlineTimer` -/
  deadline : Deadline
  /-- pending `async_send_to` operations -/
  sendOps : List Bool
  /-- pending `async_receive` operations -/
  recvOps : List Bool
  /-- `read_callback` in progress -/
  mid : Option Mid
  /-- memory of the user's objects -/
  heap : Heap
  /-- undefined behaviour has happened -/
  crashed : Bool
  /-- ghost: contents of the packets given to `implementDispatch`, when they were, since the last run of the exception
  handler -/
  dispatched : List Buf
  /-- ghost: contents of the packets sent since then, when they were sent -/
  sent : List Buf
  /-- ghost: replies validated in the whole life of the client, with the contents of the packets at that moment -/
  log : List Rx

namespace UdpP

/-- Freshly constructed client, ClientInterface.cpp:50-60 and 57-93. -/
def init : UdpP :=
  ⟨[], 0, none, fun _ => .empty, [], [], none, none, none, 0, true, none, true, .armed, [], [], none, .fresh, false, [], [], []⟩

/-- `mem` with other contents of object `i`. -/
def put (p : UdpP) (i : Nat) (b : Buf) : UdpP := { p with mem := fun j => if j = i then b else p.mem j }

/-- `if ( mBuffers.size() == 0 )` ten objects are constructed, ClientInterface.cpp:346-352. -/
def stock (p : UdpP) : UdpP :=
  match p.pool with
  | [] => { p with pool := List.range' p.made 10, made := p.made + 10 }
  | _ => p

/-- `ClientInterface::updateCurrentBuffers` up to the preamble, ClientInterface.cpp:339-357. -/
def take (p : UdpP) : UdpP :=
  match p.cur with
  | some _ => p
  | none =>
    match p.stock.pool with
    | [] => p.stock
    | i :: is => { p.stock with pool := is, cur := some i }.put i .empty

/-- The user thread writes to the current object (`Buffers::send`, `receive`, `add`, Buffers.cpp:66-94). -/
def fill (f : Buf → Buf) (p : UdpP) : UdpP :=
  match p.cur with
  | none => p
  | some i => p.put i (f (p.mem i))

/-- `mSocket.close()`: pending operations are cancelled. -/
def close (p : UdpP) : UdpP :=
  { p with sock := false, sendOps := p.sendOps.map fun _ => true, recvOps := p.recvOps.map fun _ => true }

/-- `write`, 176-200. -/
def write (p : UdpP) : UdpP :=
  match p.disp with
  | none => { p with flushDone := false }
  | some i => { p with flushDone := false, deadline := .armed, sendOps := p.sendOps ++ [false], inFlight := (p.inFlight + 1) % 2 ^ 32,
                       sent := p.sent ++ [p.mem i] }

/-- `read`, 270-291. -/
def read (p : UdpP) : UdpP :=
  match p.reply with
  | none => { p with flushDone := true }
  | some _ => { p with deadline := .armed, recvOps := p.recvOps ++ [false] }

/-- `mAsynchronousException = e; NotifyConditionalVariable ( true )`. -/
def fail (p : UdpP) (e : Exc) : UdpP := { p with exc := some e, flushDone := true }

/-- The end of `write_callback`, 256-265, and of `read_callback`, 394-399. -/
def next (maxN : Nat) (p : UdpP) : UdpP :=
  match p.dispQ with
  | i :: q => if p.inFlight ≠ maxN then { p with disp := some i, dispQ := q }.write else { p with disp := none }
  | [] => { p with disp := none }

/-- `write_callback`, 204-266. -/
def sendDone (maxN : Nat) (ok : Bool) (p : UdpP) : UdpP :=
  match p.sendOps with
  | [] => p
  | _ :: ops =>
    let p := { p with sendOps := ops }
    if p.exc.isSome then { p with flushDone := true }
    else if p.deadline = .inf then p.fail (.transport 0)
    else match p.disp with
    | none => { p with crashed := true }
    | some i =>
      if ok = false then p.close.fail (.transport 0)
      else (match p.reply with
        | some _ => { p with replyQ := p.replyQ ++ [i] }
        | none => { p with reply := some i }.read).next maxN

/-- `read_callback` up to `returnBufferToPool` in `ClientInterface::validate`, 295-360 and ClientInterface.cpp:187-198. -/
def recvBegin (c : Cfg) (r : Option (List W)) (p : UdpP) : UdpP :=
  match p.recvOps with
  | [] => p
  | _ :: ops =>
    let p := { p with recvOps := ops }
    if p.exc.isSome then { p with flushDone := true }
    else if p.deadline = .inf then p.fail (.transport 0)
    else match p.reply with
    | none => p
    | some i =>
      match r with
      | none => { p.close with mid := some .failed }
      | some ws =>
        match receiveReply c p.heap (p.mem i) ws with
        | (.ok, h) => { p with heap := h, held := some i, mid := some .last, log := p.log ++ [⟨p.mem i, ws, .ok⟩] }
        | (.err e, h) => { p with heap := h, held := some i, mid := some (.invalid e ws), log := p.log ++ [⟨p.mem i, ws, .err e⟩] }
        | (.ub, _) => { p with crashed := true }

/-- `returnBufferToPool ( aBuffers )` at the end of `ClientInterface::validate`, ClientInterface.cpp:200, 220-229. The
parameter is a copy of the pointer: `mReplyBuffers` still points to the object. -/
def giveBack (p : UdpP) : UdpP :=
  match p.held with
  | none => p
  | some i => { p with pool := p.pool ++ [i], held := none }

/-- The last section of `read_callback`, if there is no exception: `mReplyBuffers` is replaced, 381-392. -/
def shift (p : UdpP) : UdpP :=
  match p.replyQ with
  | i :: q => { { p with reply := some i, replyQ := q }.read with inFlight := (p.inFlight + (2 ^ 32 - 1)) % 2 ^ 32 }
  | [] => { p with reply := none, inFlight := (p.inFlight + (2 ^ 32 - 1)) % 2 ^ 32 }

/-- The rest of that section, 394-405. -/
def resume (maxN : Nat) (p : UdpP) : UdpP :=
  let p := if p.disp.isNone then p.next maxN else p
  if p.disp.isNone && p.reply.isNone then { p with deadline := .armed, flushDone := true } else p

/-- The rest of `read_callback`, 335-340, 361-405. -/
def recvEnd (maxN : Nat) (p : UdpP) : UdpP :=
  match p.mid with
  | none => p
  | some .failed => { p with mid := none }.fail (.transport 0)
  | some (.invalid e _) => { p with mid := some .last, exc := some e }
  | some .last =>
    let p := { p with mid := none }
    if p.exc.isSome then { p with flushDone := true } else p.shift.resume maxN

/-- `CheckDeadline`, 411-440, when the deadline has passed. -/
def timeout (p : UdpP) : UdpP :=
  match p.deadline with
  | .armed => { p.close with deadline := .inf }
  | .inf => p

/-- `implementDispatch ( mCurrentBuffers ); mCurrentBuffers.reset();`, 121-146 and ClientInterface.cpp:170-171, 311-312. If
there is an exception to report it is thrown and nothing changes (the exception handler is another step). -/
def dispatch (maxN : Nat) (p : UdpP) : UdpP :=
  match p.exc, p.cur with
  | some _, _ => p
  | none, none => p
  | none, some i =>
    let p := { p with sock := true, cur := none, dispatched := p.dispatched ++ [p.mem i] }
    if p.disp.isSome || p.inFlight == maxN then { p with dispQ := p.dispQ ++ [i] }
    else { p with disp := some i }.write

/-- `dispatchExceptionHandler`: 458-490 gives everything back to the pool; then, through ProtocolIPbus.cpp:221-224 or 426-431
and ProtocolIPbusCore.cpp:534-538, `ClientInterface::deleteBuffers`, ClientInterface.cpp:363-383, empties the pool and drops
the current object. -/
def handler (p : UdpP) : UdpP :=
  let p := { p.close with flushDone := true, exc := none }
  let p := { p with pool := p.pool ++ p.dispQ ++ p.replyQ ++ p.disp.toList ++ p.reply.toList,
                    dispQ := [], replyQ := [], inFlight := 0, disp := none, reply := none }
  { p with pool := [], cur := none, dispatched := [], sent := [] }

/-- One step of a schedule. -/
inductive Act
  | take
  | fill (f : Buf → Buf)
  | dispatch
  | handler
  | ev (e : Ev)
  | giveBack

/-- A step of the network thread, which finishes one callback before it begins the next one, and `validate` before the rest of
`read_callback`. -/
def ev (c : Cfg) (maxN : Nat) (p : UdpP) (e : Ev) : UdpP :=
  match e, p.mid with
  | .sendDone ok, none => p.sendDone maxN ok
  | .recvBegin r, none => p.recvBegin c r
  | .timeout, none => p.timeout
  | .recvEnd, some _ => if p.held.isSome then p else p.recvEnd maxN
  | _, _ => p

/-- A step. -/
def act (c : Cfg) (maxN : Nat) (p : UdpP) (a : Act) : UdpP :=
  if p.crashed then p
  else match a with
  | .take => p.take
  | .fill f => p.fill f
  | .dispatch => p.dispatch maxN
  | .handler => p.handler
  | .ev e => p.ev c maxN e
  | .giveBack => p.giveBack

/-- All schedules. -/
def run (c : Cfg) (maxN : Nat) (as : List Act) : UdpP := as.foldl (act c maxN) init

end UdpP

/-! ## The pool under PCIe and mmap clients

There is only the user thread. `read` takes the packet out of the queue before the reply is validated. What happens on the
device is left out (`Paged`): a step says how far `read` gets. -/

/-- State of the client: the pool, `mCurrentBuffers`, `mReplyQueue`, and contents. -/
structure PagedP where
  pool : List Nat
  made : Nat
  cur : Option Nat
  mem : Nat → Buf
  queue : List Nat
  /-- ghost: contents of the packets given to `write`, when they were, since the last run of the exception handler -/
  written : List Buf
  /-- ghost: contents of the packets taken out of the queue since then, when their replies were copied and validated -/
  taken : List Buf

/-- How far `read` gets. -/
inductive Got
  /-- an exception before the packet is taken out of the queue (timeout, file), ProtocolPCIe.cpp:547-607, ProtocolMmap.cpp:478-510 -/
  | nothing
  /-- an exception while the page is read or validated, ProtocolPCIe.cpp:610-643, 649-654: the packet is dropped -/
  | broken
  /-- `ClientInterface::validate` returns, with an exception or without, ProtocolPCIe.cpp:647 -/
  | validated
deriving DecidableEq, Repr

namespace PagedP

/-- Freshly constructed client. -/
def init : PagedP := ⟨[], 0, none, fun _ => .empty, [], [], []⟩

/-- Other contents of object `i`. -/
def put (p : PagedP) (i : Nat) (b : Buf) : PagedP := { p with mem := fun j => if j = i then b else p.mem j }

/-- ClientInterface.cpp:346-352. -/
def stock (p : PagedP) : PagedP :=
  match p.pool with
  | [] => { p with pool := List.range' p.made 10, made := p.made + 10 }
  | _ => p

/-- `ClientInterface::updateCurrentBuffers`, ClientInterface.cpp:339-357. -/
def take (p : PagedP) : PagedP :=
  match p.cur with
  | some _ => p
  | none =>
    match p.stock.pool with
    | [] => p.stock
    | i :: is => { p.stock with pool := is, cur := some i }.put i .empty

/-- The user writes to the current object. -/
def fill (f : Buf → Buf) (p : PagedP) : PagedP :=
  match p.cur with
  | none => p
  | some i => p.put i (f (p.mem i))

/-- `write`, ProtocolPCIe.cpp:510-539, ProtocolMmap.cpp:441-470, and `mCurrentBuffers.reset()`. -/
def write (p : PagedP) : PagedP :=
  match p.cur with
  | none => p
  | some i => { p with cur := none, queue := p.queue ++ [i], written := p.written ++ [p.mem i] }

/-- `read`, ProtocolPCIe.cpp:542-658, ProtocolMmap.cpp:473-559. -/
def read (g : Got) (p : PagedP) : PagedP :=
  match g, p.queue with
  | .nothing, _ => p
  | _, [] => p
  | .broken, i :: q => { p with queue := q, taken := p.taken ++ [p.mem i] }
  | .validated, i :: q => { p with queue := q, taken := p.taken ++ [p.mem i], pool := p.pool ++ [i] }

/-- `dispatchExceptionHandler`, ProtocolPCIe.cpp:411-422, ProtocolMmap.cpp:356-367, and ClientInterface.cpp:363-383. -/
def handler (p : PagedP) : PagedP :=
  let p := { p with pool := p.pool ++ p.queue, queue := [] }
  { p with pool := [], cur := none, written := [], taken := [] }

/-- One step. -/
inductive Act
  | take
  | fill (f : Buf → Buf)
  | write
  | read (g : Got)
  | handler

/-- A step. -/
def act (p : PagedP) : Act → PagedP
  | .take => p.take
  | .fill f => p.fill f
  | .write => p.write
  | .read g => p.read g
  | .handler => p.handler

/-- All sequences of steps. -/
def run (as : List Act) : PagedP := as.foldl act init

end PagedP
end Verif
