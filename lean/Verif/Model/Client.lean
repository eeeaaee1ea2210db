import Verif.Model.Bits
/-!
# The client: operations, packet building, dispatch

Models `ClientInterface`, `IPbusCore`, `IPbus<1,3>`, `IPbus<2,0>`, the preamble part of `ControlHub` and
`Buffers`. Paths are relative to `/repo/uhal/uhal`.

Simplifications (all of them):
* Send buffers are lists of 32-bit words (everything the code appends is a multiple of 4 bytes, except the
  two 16-bit ControlHub fields, which are modelled as one word); `sendCounter`/`replyCounter` are four times
  the list lengths. The allocated capacity (`getMaxSendSize()` bytes) is kept: writing beyond it is `ub`.
* A reply-queue entry `(pointer, byte count)` is a `Slot`: a symbolic location and a length in words.
* Packets are values. The pool of buffers (`mBuffers`), from which the objects that hold them are taken, is in
  `Pool`, where this is shown to make no difference; `mUserSideMutex` makes every public call atomic.
* `NO_PREEMPTIVE_DISPATCH` is not defined (the default build).
* Log output is not modelled.
-/

set_option autoImplicit false

namespace Verif

/-- Memory into which replies are received. -/
inductive Loc
  /-- element `k` of `IPbusHeaders` of the ValMem object `obj` -/
  | hdr (obj k : Nat)
  /-- word `off` of the value of the ValMem object `obj` -/
  | data (obj off : Nat)
  /-- the element of `mReceivePacketHeader` pushed by the `k`-th preamble -/
  | pkt (k : Nat)
  /-- the `j`-th reply word of the `tpreamble` pushed by the `k`-th preamble: 0 chunk byte count,
  1 device IP, 2 device port (low half) and error code (high half) -/
  | hub (k j : Nat)
deriving DecidableEq, Repr

/-- An entry of `Buffers::mReplyBuffer` (include/uhal/Buffers.hpp), length in words. -/
structure Slot where
  loc : Loc
  len : Nat
deriving DecidableEq, Repr

/-- `Buffers`, src/common/Buffers.cpp:42-128: bytes to send (as words), reply queue, and the ValMem objects
that `Buffers::validate` will mark valid. -/
structure Buf where
  send : List W
  reply : List Slot
  adds : List Nat
deriving DecidableEq, Repr

/-- `replyCounter()` in words. -/
def Buf.replyWords (b : Buf) : Nat := (b.reply.map Slot.len).sum

/-- `Buffers::clear`, src/common/Buffers.cpp:113-121. -/
def Buf.empty : Buf := ⟨[], [], []⟩

/-- Exceptions that can come out of the client. -/
inductive Exc
  /-- `BitsSetWhichAreForbiddenByBitMask` -/
  | bitsForbidden
  /-- `ValidationError` thrown by `CalculateHeader` for an unsupported type -/
  | headerType
  /-- `IPbusCoreUnparsableTransactionHeader`, send side -/
  | unparsableSend
  /-- `IPbusCoreUnparsableTransactionHeader`, reply side -/
  | unparsableReply
  /-- `IPbusTransactionFieldsIncorrect` -/
  | fieldsIncorrect
  /-- `IPbusCoreResponseCodeSet` -/
  | responseCode (info : BitVec 8)
  /-- `IPbus2PacketHeaderMismatch` -/
  | packetHeader
  /-- `ControlHubReturnedWrongAddress` -/
  | hubAddress
  /-- `ControlHubTargetTimeout` -/
  | hubTimeout
  /-- `ControlHubErrorCodeSet` -/
  | hubError
  /-- timeout or I/O error of the transport -/
  | transport (code : Nat)
deriving DecidableEq, Repr

/-- Outcome of a call: normal return, exception (with the state it leaves behind), undefined behaviour,
or non-termination. -/
inductive Out (σ α : Type)
  | ok (a : α) (s : σ)
  | exc (e : Exc) (s : σ)
  | ub
  | loops

/-- What is fixed when a client is constructed. -/
structure Cfg where
  ver : Ver
  /-- `some (mDeviceIPaddress, mDevicePort)` for ControlHub clients (values as stored, network order) -/
  hub : Option (W × BitVec 16)
  /-- `getMaxSendSize()`, bytes -/
  maxSend : W
  /-- `getMaxReplySize()`, bytes -/
  maxReply : W
  /-- signed negation overflow wraps (see `trb`) -/
  wrapNeg : Bool

/-- `getPreambleSize()`: src/common/ProtocolIPbus.cpp:75-79, 273-277 (1), ProtocolControlHub.cpp:196-200 (+2). -/
def Cfg.preambleSize (c : Cfg) : Nat := 1 + if c.hub.isSome then 2 else 0

/-- The transport layer under the packet builder, as a parameter: `implementDispatch`, `Flush` and the
transport's part of `dispatchExceptionHandler`. Instances are given elsewhere. -/
structure Transport (τ : Type) where
  disp : τ → Buf → Out τ Unit
  flush : τ → Out τ Unit
  handler : τ → τ

/-- State of a client. -/
structure St (τ : Type) where
  /-- `mTransactionCounter` -/
  ctr : W
  /-- `mCurrentBuffers` -/
  cur : Option Buf
  /-- number of ValMem objects created so far: names of new ones -/
  nObj : Nat
  /-- number of preambles written so far: names of packet-header / hub-preamble storage -/
  nPre : Nat
  /-- state of the transport -/
  tr : τ
  /-- history (ghost, never read): every buffer passed to `implementDispatch`, oldest first -/
  hist : List Buf

/-- Freshly constructed client. -/
def St.init {τ} (t : τ) : St τ := ⟨0, none, 0, 0, t, []⟩

/-- Calls that read and change the client state. -/
abbrev M (τ α : Type) := St τ → Out (St τ) α

/-- Return. -/
def M.pure {τ α} (a : α) : M τ α := fun s => .ok a s
/-- Sequential composition; exceptions, undefined behaviour and non-termination propagate. -/
def M.bind {τ α β} (m : M τ α) (f : α → M τ β) : M τ β := fun s =>
  match m s with
  | .ok a s' => f a s'
  | .exc e s' => .exc e s'
  | .ub => .ub
  | .loops => .loops

instance {τ} : Monad (M τ) where
  pure := M.pure
  bind := M.bind

section
variable {τ : Type} (c : Cfg) (T : Transport τ)

/-- `Buffers::send`, src/common/Buffers.cpp:68-74 and TemplateDefinitions/Buffers.hxx:43-61, on the current
buffer: `memcpy` without a bounds check, so `ub` if it does not fit the allocation; `ub` if there is no
current buffer (null pointer). -/
def sendWords (ws : List W) : M τ Unit := fun s =>
  match s.cur with
  | none => .ub
  | some b =>
    if 4 * (b.send.length + ws.length) ≤ c.maxSend.toNat then
      .ok () { s with cur := some { b with send := b.send ++ ws } }
    else .ub

/-- `Buffers::receive`, src/common/Buffers.cpp:77-81. -/
def receive (loc : Loc) (len : Nat) : M τ Unit := fun s =>
  match s.cur with
  | none => .ub
  | some b => .ok () { s with cur := some { b with reply := b.reply ++ [⟨loc, len⟩] } }

/-- `Buffers::add`, src/common/Buffers.cpp:83-96. -/
def addMem (obj : Nat) : M τ Unit := fun s =>
  match s.cur with
  | none => .ub
  | some b => .ok () { s with cur := some { b with adds := b.adds ++ [obj] } }

/-- `CreateValHeader`, `CreateValWord`, `CreateValVector`, src/common/ClientInterface.cpp:386-404: a new,
not yet valid object whose words are zero (fresh names denote zeroed, invalid memory). -/
def alloc : M τ Nat := fun s => .ok s.nObj { s with nObj := s.nObj + 1 }

/-- `lBuffers->send ( implementCalculateHeader ( type , wc , mTransactionCounter++ , requestTransactionInfoCode() ) )`,
e.g. src/common/ProtocolIPbusCore.cpp:281. The counter is incremented even if the call throws. -/
def sendHeader (ty : Ty) (wc : W) : M τ Unit := fun s =>
  let s1 := { s with ctr := s.ctr + 1 }
  match calcHeader c.ver ty wc s.ctr (reqInfo c.ver) with
  | none => .exc .headerType s1
  | some h => sendWords c [h] s1

/-- `getMaxSendSize() - sendCounter()`, uint32 arithmetic. -/
def freeSend (b : Buf) : W := c.maxSend - BitVec.ofNat 32 (4 * b.send.length)
/-- `getMaxReplySize() - replyCounter()`, uint32 arithmetic. -/
def freeReply (b : Buf) : W := c.maxReply - BitVec.ofNat 32 (4 * b.replyWords)

/-- `ControlHub::preamble` without the call of the inner preamble, src/common/ProtocolControlHub.cpp:163-190.
The 16-bit port and the 16-bit word count (0 for now) are one word: port in the low half. -/
def hubPreamble : M τ Unit :=
  match c.hub with
  | none => pure ()
  | some (ip, port) => do
    sendWords c [ip, port.setWidth 32]
    fun s => (do
      receive (.hub s.nPre 0) 1
      receive (.hub s.nPre 1) 1
      receive (.hub s.nPre 2) 1) s

/-- `IPbusCore::implementBOT`, src/common/ProtocolIPbusCore.cpp:270-288, as called from the preamble. The
call of `checkBufferSpace(4,4)` grants the space when 4 bytes are free in both directions. Otherwise the
code dispatches the half-built buffer and starts another one, which fails the same test again: `loops`. -/
def implementBOT : M τ Unit := do
  (fun s => match s.cur with
    | none => .ub
    | some b => if 4#32 ≤ freeSend c b ∧ 4#32 ≤ freeReply c b then .ok () s else .loops)
  sendHeader c .bot 0
  let obj ← alloc
  addMem obj
  receive (.hdr obj 0) 1

/-- `preamble`: ProtocolControlHub.cpp:163-192, then ProtocolIPbus.cpp:68-72 (v1) or 261-270 (v2;
`mPacketCounter` is initialised to 0 and never incremented). -/
def preamble : M τ Unit := do
  hubPreamble c
  match c.ver with
  | .v1 => implementBOT c
  | .v2 => do
    sendWords c [0x200000F0#32]
    fun s => receive (.pkt s.nPre) 1 s
  fun s => .ok () { s with nPre := s.nPre + 1 }

/-- `ClientInterface::updateCurrentBuffers`, src/common/ClientInterface.cpp:339-360. -/
def updateCurrentBuffers : M τ Unit := fun s =>
  match s.cur with
  | some _ => .ok () s
  | none => preamble c { s with cur := some Buf.empty }

/-- The padding loop of `IPbus<1,m>::predispatch`, src/common/ProtocolIPbus.cpp:93-101:
`CalculateHeader ( B_O_T , 0 , 0 )`, info code defaulting to 0. -/
def padLoop : Nat → M τ Unit
  | 0 => pure ()
  | n + 1 => do
    match calcHeader1 .bot 0 0 0 with
    | none => (fun s => .exc .headerType s)
    | some h => sendWords c [h]
    let obj ← alloc
    addMem obj
    receive (.hdr obj 0) 1
    padLoop n

/-- `htons` on a little-endian host. -/
def bswap16 (x : BitVec 16) : BitVec 16 := (x <<< 8) ||| (x >>> 8)

/-- The word-count patch of `ControlHub::predispatch`, src/common/ProtocolControlHub.cpp:206-210:
the upper half of word 1 becomes `htons((sendCounter-8)>>2)`. -/
def hubPatch : M τ Unit := fun s =>
  match c.hub with
  | none => .ok () s
  | some (_, port) =>
    match s.cur with
    | none => .ub
    | some b =>
      let n : W := (BitVec.ofNat 32 (4 * b.send.length) - 8#32) >>> 2
      let w : W := port.setWidth 32 ||| ((bswap16 (n.setWidth 16)).setWidth 32 <<< 16)
      .ok () { s with cur := some { b with send := b.send.set 1 w } }

/-- `predispatch`: ProtocolIPbus.cpp:82-104 (v1), 280-283 (v2: nothing), ProtocolControlHub.cpp:203-211. -/
def predispatch : M τ Unit := do
  match c.ver with
  | .v1 => fun s =>
    match s.cur with
    | none => .ub
    | some b =>
      let pad : W := BitVec.ofNat 32 (7 + c.preambleSize) - BitVec.ofNat 32 b.send.length
      if (0#32).slt pad then padLoop c pad.toNat s else .ok () s
  | .v2 => pure ()
  hubPatch c

/-- `dispatchExceptionHandler`: transport part, then ProtocolControlHub.cpp:286-294, ProtocolIPbus.cpp:425-431,
ProtocolIPbusCore.cpp:534-538, ClientInterface.cpp:363-383. -/
def exceptionHandler (s : St τ) : St τ :=
  { s with ctr := 0, cur := none, tr := T.handler s.tr }

/-- `predispatch ( mCurrentBuffers ); implementDispatch ( mCurrentBuffers ); mCurrentBuffers.reset();`
without the exception handling, src/common/ClientInterface.cpp:304-306 and 169-171. -/
def dispatchCurrent : M τ Unit := do
  predispatch c
  fun s => match s.cur with
    | none => .ub
    | some b =>
      match T.disp s.tr b with
      | .ok () t => .ok () { s with cur := none, tr := t, hist := s.hist ++ [b] }
      | .exc e t => .exc e { s with tr := t, hist := s.hist ++ [b] }
      | .ub => .ub
      | .loops => .loops

/-- `try { ... } catch ( ... ) { this->dispatchExceptionHandler(); throw; }`. -/
def withHandler {α} (m : M τ α) : M τ α := fun s =>
  match m s with
  | .exc e s' => .exc e (exceptionHandler T s')
  | r => r

/-- `ClientInterface::checkBufferSpace`, src/common/ClientInterface.cpp:280-335. Returns the available send
and reply sizes; the buffer returned by the C++ function is `mCurrentBuffers`. -/
def checkBufferSpace (reqS reqR : W) : M τ (W × W) := do
  updateCurrentBuffers c
  fun s => match s.cur with
    | none => .ub
    | some b =>
      let fs := freeSend c b
      let fr := freeReply c b
      if reqS ≤ fs ∧ reqR ≤ fr then .ok (reqS, reqR) s
      else if 16#32 < fs ∧ 16#32 < fr then .ok (fs, fr) s
      else (do
        withHandler T (dispatchCurrent c T)
        updateCurrentBuffers c
        fun s => match s.cur with
          | none => .ub
          | some b =>
            let fs := freeSend c b
            let fr := freeReply c b
            if reqS ≤ fs ∧ reqR ≤ fr then .ok (reqS, reqR) s else .ok (fs, fr) s) s

/-- What a queued operation returns to the user. -/
inductive Handle
  /-- `ValHeader` -/
  | hdr (obj : Nat)
  /-- `ValWord<uint32_t>` with its mask -/
  | word (obj : Nat) (mask : W)
  /-- `ValVector<uint32_t>` with its size -/
  | vec (obj : Nat) (n : Nat)
deriving DecidableEq, Repr

/-- Object named by a handle (the target of `mMembers`). -/
def Handle.obj : Handle → Nat
  | .hdr o => o
  | .word o _ => o
  | .vec o _ => o

/-- `defs::NOMASK`. -/
def noMask : W := 0xFFFFFFFF

/-- `IPbusCore::implementWrite`, src/common/ProtocolIPbusCore.cpp:293-316. -/
def implementWrite (addr d : W) : M τ Handle := do
  let _ ← checkBufferSpace c T 12 4
  sendHeader c .write 1
  sendWords c [addr]
  sendWords c [d]
  let obj ← alloc
  addMem obj
  receive (.hdr obj 0) 1
  pure (.hdr obj)

/-- `IPbusCore::implementRead`, src/common/ProtocolIPbusCore.cpp:372-395. -/
def implementRead (addr mask : W) : M τ Handle := do
  let _ ← checkBufferSpace c T 8 8
  sendHeader c .read 1
  sendWords c [addr]
  let obj ← alloc
  addMem obj
  receive (.hdr obj 0) 1
  receive (.data obj 0) 1
  pure (.word obj mask)

/-- `IPbusCore::implementReadConfigurationSpace`, src/common/ProtocolIPbusCore.cpp:446-469. -/
def implementReadConfigurationSpace (addr mask : W) : M τ Handle := do
  let _ ← checkBufferSpace c T 8 8
  sendHeader c .configRead 1
  sendWords c [addr]
  let obj ← alloc
  addMem obj
  receive (.hdr obj 0) 1
  receive (.data obj 0) 1
  pure (.word obj mask)

/-- `IPbusCore::implementRMWbits`, src/common/ProtocolIPbusCore.cpp:474-501. -/
def implementRMWbits (addr andTerm orTerm : W) : M τ Handle := do
  let _ ← checkBufferSpace c T 16 8
  sendHeader c .rmwBits 1
  sendWords c [addr]
  sendWords c [andTerm]
  sendWords c [orTerm]
  let obj ← alloc
  addMem obj
  receive (.hdr obj 0) 1
  receive (.data obj 0) 1
  pure (.word obj noMask)

/-- `IPbusCore::implementRMWsum`, src/common/ProtocolIPbusCore.cpp:506-530. -/
def implementRMWsum (addr addend : W) : M τ Handle := do
  let _ ← checkBufferSpace c T 12 8
  sendHeader c .rmwSum 1
  sendWords c [addr]
  sendWords c [addend]
  let obj ← alloc
  addMem obj
  receive (.hdr obj 0) 1
  receive (.data obj 0) 1
  pure (.word obj noMask)

/-- `std::min ( 4*getMaxTransactionWordCount(), avail - overhead ) & 0xFFFFFFFC`,
src/common/ProtocolIPbusCore.cpp:342 and 424; unsigned comparison, unsigned subtraction. -/
def payloadBytes (avail overhead : W) : W :=
  let a := 4#32 * maxWC c.ver
  let b := avail - overhead
  (if b < a then b else a) &&& 0xFFFFFFFC#32

/-- The `do`-`while` loop of `IPbusCore::implementWriteBlock`, src/common/ProtocolIPbusCore.cpp:339-363.
`rest` is the part of the source vector from `lSourcePtr` on (copying more than that is `ub`), `payload` is
the `int32_t lPayloadByteCount`, `k` the number of headers so far. An iteration either makes progress or
leaves the loop variables unchanged, in which case the code loops forever; `fuel` counts iterations. -/
def writeBlockLoop (ty : Ty) (inc nonEmpty : Bool) (obj : Nat) : Nat → Nat → List W → W → W → M τ Unit
  | 0, _, _, _, _ => fun _ => .loops
  | fuel + 1, k, rest, addr, payload => do
    let av ← checkBufferSpace c T (8#32 + payload) 4
    let bytes := payloadBytes c av.1 8
    sendHeader c ty (bytes >>> 2)
    sendWords c [addr]
    let n := bytes.toNat / 4
    if nonEmpty then
      if n ≤ rest.length then sendWords c (rest.take n) else fun _ => .ub
    let rest' := if nonEmpty then rest.drop n else rest
    let payload' := if nonEmpty then payload - bytes else payload
    let addr' := if inc then addr + (bytes >>> 2) else addr
    receive (.hdr obj k) 1
    if (0#32).slt payload' then writeBlockLoop ty inc nonEmpty obj fuel (k + 1) rest' addr' payload'
    else pure ()

/-- `IPbusCore::implementWriteBlock`, src/common/ProtocolIPbusCore.cpp:319-367. `inc`: `aMode == INCREMENTAL`. -/
def implementWriteBlock (addr : W) (src : List W) (inc : Bool) : M τ Handle := do
  let obj ← alloc
  writeBlockLoop c T (if inc then .write else .niWrite) inc (!src.isEmpty) obj (src.length + 1) 0 src addr
    (BitVec.ofNat 32 (src.length * 4))
  addMem obj
  pure (.hdr obj)

/-- The `do`-`while` loop of `IPbusCore::implementReadBlock`, src/common/ProtocolIPbusCore.cpp:420-438.
`off` is the offset of `lReplyPtr` in words; a slice that leaves the result vector (`size` words) is `ub`. -/
def readBlockLoop (ty : Ty) (inc : Bool) (obj size : Nat) : Nat → Nat → Nat → W → W → M τ Unit
  | 0, _, _, _, _ => fun _ => .loops
  | fuel + 1, k, off, addr, payload => do
    let av ← checkBufferSpace c T 8 (4#32 + payload)
    let bytes := payloadBytes c av.2 4
    sendHeader c ty (bytes >>> 2)
    sendWords c [addr]
    receive (.hdr obj k) 1
    let n := bytes.toNat / 4
    if off + n ≤ size then receive (.data obj off) n else fun _ => .ub
    let payload' := payload - bytes
    let addr' := if inc then addr + (bytes >>> 2) else addr
    if (0#32).slt payload' then readBlockLoop ty inc obj size fuel (k + 1) (off + n) addr' payload'
    else pure ()

/-- `IPbusCore::implementReadBlock`, src/common/ProtocolIPbusCore.cpp:398-442. -/
def implementReadBlock (addr : W) (size : W) (inc : Bool) : M τ Handle := do
  let obj ← alloc
  readBlockLoop c T (if inc then .read else .niRead) inc obj size.toNat (size.toNat + 1) 0 0 addr (size <<< 2)
  addMem obj
  pure (.vec obj size.toNat)

/-- The user's calls. -/
inductive Op
  | write (addr d : W)
  | writeMasked (addr d mask : W)
  | writeBlock (addr : W) (src : List W) (inc : Bool)
  | read (addr : W)
  | readMasked (addr mask : W)
  | readBlock (addr size : W) (inc : Bool)
  | readConfig (addr mask : W)
  | rmwBits (addr andTerm orTerm : W)
  | rmwSum (addr addend : W)
  | dispatch
deriving DecidableEq, Repr

/-- `ClientInterface::dispatch`, src/common/ClientInterface.cpp:143-180. -/
def clientDispatch : M τ Unit := withHandler T fun s =>
  match s.cur with
  | none => .ok () s
  | some _ => (do
    dispatchCurrent c T
    fun s => match T.flush s.tr with
      | .ok () t => .ok () { s with tr := t }
      | .exc e t => .exc e { s with tr := t }
      | .ub => .ub
      | .loops => .loops) s

/-- The public calls, src/common/ClientInterface.cpp:408-490, ProtocolIPbusCore.cpp:128-139. `none` is
returned by `dispatch`. A masked write returns the `ValWord` of the read-modify-write as a `ValHeader`
(same object). -/
def Op.run : Op → M τ (Option Handle)
  | .write a d => do pure (some (← implementWrite c T a d))
  | .writeMasked a d m => fun s =>
    match maskedArg c.wrapNeg d m with
    | .ub => .ub
    | .forbidden => .exc .bitsForbidden s
    | .rmw x o => (do
      match ← implementRMWbits c T a x o with
      | .word obj _ => pure (some (Handle.hdr obj))
      | h => pure (some h)) s
  | .writeBlock a src inc => do pure (some (← implementWriteBlock c T a src inc))
  | .read a => do pure (some (← implementRead c T a noMask))
  | .readMasked a m => do pure (some (← implementRead c T a m))
  | .readBlock a n inc => do pure (some (← implementReadBlock c T a n inc))
  | .readConfig a m => do pure (some (← implementReadConfigurationSpace c T a m))
  | .rmwBits a x o => do pure (some (← implementRMWbits c T a x o))
  | .rmwSum a x => do pure (some (← implementRMWsum c T a x))
  | .dispatch => do clientDispatch c T; pure none

end

end Verif
