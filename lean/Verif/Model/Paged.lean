import Verif.Model.Link
/-!
# PCIe and mmap clients, and the device they share

`/repo/uhal/uhal/src/common/ProtocolPCIe.cpp` and `ProtocolMmap.cpp` (line numbers below: first the PCIe file, then, after
a slash, the mmap file), and `detail/RobustSessionMutex.cpp`. Both clients write requests into the pages of a ring buffer of
the device and read the replies from a ring of reply pages. A file lock (`flock`) on the device file keeps clients in
different processes apart; a session counter in shared memory, protected by a robust mutex, tells a client whether somebody
else used the device since it last looked at the page index and the counter of published pages.

The state machine has any number of clients (one per process) and the device. A step is a section of code that no other
client can influence: the sections under the shared-memory mutex, and those under the file lock.

The device is `/repo/uhal/tests/src/common/PCIeDummyHardware.cpp` 111-172, the only description of the other side in the
repository, except that it takes requests from the page where they belong instead of from a FIFO: it processes the pages in
order, each when it has been written, and answers in the reply page with the same index; it publishes the number of pages,
the page size, the index of the next page it will process, and the number of pages processed.

Simplifications:
* What is written to and what is read from the device are separate memories, for both clients (for mmap that is what the
  firmware does with one address window).
* An access that fails (`lseek`, `read`, `write`, SIGBUS, a lock that cannot be taken) or times out is the step `fail`,
  possible at any time in `implementDispatch` and, while replies are awaited, in `Flush` (after that there are only `unlock`, which
  does not throw, 296-303, and the mutex); a failed access leaves the device unchanged.
* The device file lock is released by the system when a process dies (`crash`); the shared-memory mutex is robust, so it is
  never blocked for good (RobustSessionMutex.cpp 54-66) and sections under it happen one at a time, each as a whole; when a process dies in one
  of them the only thing that may be left half done is the start of a session (`halfStart`). This is proved in C87.
* The 64-bit session counter does not wrap. Opening of files, buffers and log messages are left out.
* `max_packet_size` and the page size enter `getMaxSendSize` and `getMaxReplySize`; the packet builder calls them through
  the constants of `Cfg`.
-/

set_option autoImplicit false

namespace Verif

/-- Memory, by word address. -/
abbrev Mem := Nat → W

/-- Words written one after the other from `a` on. -/
def Mem.blit (m : Mem) (a : Nat) (ws : List W) : Mem := fun x => if a ≤ x then (ws[x - a]?).getD (m x) else m x

/-- `n` words from `a` on. -/
def Mem.get (m : Mem) (a n : Nat) : List W := (List.range n).map fun i => m (a + i)

/-- Word in front of a packet of `n` words: 528 / 459; PCIeDummyHardware.cpp 152. -/
def pageHeader (n : Nat) : W := 0x10000#32 ||| ((BitVec.ofNat 32 n - 1#32) &&& 0xFFFF#32)

/-- Number of words announced by a page header: 626 / 527; PCIeDummyHardware.cpp 131. -/
def pageWords (h : W) : Nat := (h >>> 16).toNat + (h &&& 0xFFFF#32).toNat

/-- The device. -/
structure PDev (ρ : Type) where
  /-- number of pages -/
  pages : Nat
  /-- words per page -/
  size : Nat
  /-- index of the page for the first request -/
  start : Nat
  /-- value of the counter at the start -/
  count0 : W
  /-- request pages -/
  req : Mem
  /-- status words and reply pages -/
  rep : Mem
  /-- number of requests written -/
  written : Nat
  /-- number of requests processed -/
  done : Nat
  /-- the device does not answer any more -/
  hung : Bool
  /-- an interrupt is pending -/
  irq : Bool
  /-- state of the target behind it -/
  env : ρ
  /-- ghost: requests written -/
  reqs : List (List W)
  /-- ghost: answers -/
  ans : List (List W)

/-- Page of the `k`-th request. -/
def PDev.page {ρ : Type} (d : PDev ρ) (k : Nat) : Nat := (d.start + k) % d.pages

/-- The device processes a request, PCIeDummyHardware.cpp 111-172. A reply longer than a page is cut off. -/
def PDev.answer {ρ : Type} (resp : ρ → List W → Option (List W) × ρ) (d : PDev ρ) : PDev ρ :=
  if d.hung ∨ d.written ≤ d.done then d
  else
    let p := d.page d.done
    match resp d.env (d.req.get (p * d.size + 1) (pageWords (d.req (p * d.size)))) with
    | (none, e) => { d with hung := true, env := e }
    | (some r, e) =>
      let r := r.take (d.size - 1)
      { d with rep := d.rep.blit (4 + p * d.size) (pageHeader r.length :: r), done := d.done + 1, env := e, irq := true, ans := d.ans ++ [r] }

/-- Published counter. -/
def PDev.count {ρ : Type} (d : PDev ρ) : W := d.count0 + BitVec.ofNat 32 d.done

/-- The clients. -/
inductive PKind
  /-- PCIe, polling the status words -/
  | poll
  /-- PCIe, waiting for interrupts (`events` attribute of the URI) -/
  | intr
  /-- memory-mapped device file -/
  | mmap
deriving DecidableEq

/-- Constant data of a client: what the URI says (315-376 / 283-321). `maxIn`, `maxPkt`: 0 if absent. -/
structure PCfg where
  kind : PKind
  maxIn : Nat
  maxPkt : Nat
  /-- `xdma_7series_workaround` -/
  workaround : Bool

/-- Where the user thread of a client is. -/
inductive PPc
  /-- outside of the transport -/
  | idle
  /-- in `implementDispatch` -/
  | disp (b : Buf)
  /-- in `Flush`, before the lock is released -/
  | flush
  /-- in `Flush`, after the lock was released and before the session is ended -/
  | flushed
  /-- an exception was thrown -/
  | thrown
  /-- the process is dead -/
  | dead
deriving DecidableEq

/-- State of a client. -/
structure PCl where
  pc : PPc
  /-- `mConnected` -/
  connected : Bool
  /-- the device file is locked by this client (`haveLock()`) -/
  have_ : Bool
  /-- in `write`: the session has been started, 515-523 / 446-454 -/
  started : Bool
  /-- `mIPCExternalSessionActive` -/
  ext : Bool
  /-- `mIPCSessionCount` -/
  sess : Nat
  /-- `mNumberOfPages` -/
  pages : Nat
  /-- `mMaxInFlight` -/
  maxIn : Nat
  /-- `mPageSize` -/
  size : Nat
  /-- `mMaxPacketSize` -/
  maxPkt : Nat
  /-- `mIndexNextPage` -/
  idx : Nat
  /-- `mPublishedReplyPageCount` -/
  pub : W
  /-- `mReadReplyPageCount` -/
  rd : W
  /-- `mReplyQueue`; ghost: the number of the request -/
  queue : List (Buf × Nat)
  /-- in `read`: an interrupt has been received, 547-572 -/
  waited : Bool
  heap : Heap
  /-- undefined behaviour -/
  crashed : Bool
  /-- ghost: what was read: packet, number of its request, index of the page read, words taken, verdict -/
  got : List (Buf × Nat × Nat × List W × VOut)

/-- A new client, 315-330 / 283-294. -/
def PCl.init (p : PCfg) : PCl :=
  { pc := .idle, connected := false, have_ := false, started := false, ext := false, sess := 0, pages := 0, maxIn := p.maxIn, size := 0
    maxPkt := p.maxPkt, idx := 0, pub := 0#32, rd := 0#32, queue := [], waited := false, heap := .fresh, crashed := false, got := [] }

/-- Everything. -/
structure PW (ρ : Type) where
  dev : PDev ρ
  /-- `mCount` of the `RobustSessionMutex` -/
  ctr : Nat
  /-- `mSessionActive` of the `RobustSessionMutex` -/
  active : Bool
  /-- holder of the file lock -/
  lock : Option Nat
  cl : Nat → PCl
  /-- ghost: a client ended its session when another client had already started the next one -/
  raced : Bool
  /-- ghost: the device was looked at to start a session while it had unprocessed requests -/
  late : Bool

/-- In the beginning: no client has used the device since it was started. -/
def PW.init {ρ : Type} (ps : Nat → PCfg) (pages size start : Nat) (count0 : W) (e : ρ) : PW ρ :=
  { dev := { pages, size, start, count0, req := fun _ => 0#32, rep := fun _ => 0#32, written := 0, done := 0, hung := false, irq := false, env := e
             reqs := [], ans := [] }
    ctr := 0, active := false, lock := none, cl := fun i => .init (ps i), raced := false, late := false }

def PW.set {ρ : Type} (w : PW ρ) (i : Nat) (u : PCl) : PW ρ := { w with cl := fun j => if j = i then u else w.cl j }

/-- `connect`, 450-498 / 395-431, under the mutex. An inconsistent status makes it throw. -/
def PCl.connect {ρ : Type} (p : PCfg) (d : PDev ρ) (active : Bool) (ctr : Nat) (u : PCl) : PCl :=
  let size := if p.kind = .mmap then min 4096 d.size else d.size
  let u := { u with
    ext := active && !u.have_, sess := ctr, pages := d.pages
    maxIn := if u.maxIn = 0 ∨ u.maxIn > d.pages then d.pages else u.maxIn
    size := size, maxPkt := if u.maxPkt = 0 ∨ u.maxPkt ≥ size then (size + 2 ^ 32 - 1) % 2 ^ 32 else u.maxPkt
    idx := d.page d.done, pub := d.count, rd := d.count }
  if d.size > 0xFFFF ∨ u.idx ≥ d.pages then { u with pc := .thrown } else { u with connected := true }

/-- The number of unanswered packets at which `implementDispatch` reads a reply first: 392 / 337. -/
def PCl.limit (p : PCfg) (u : PCl) : Nat := if p.kind = .mmap then u.pages else u.maxIn

/-- `read` is being executed: 392, 401 / 337, 346. -/
def PCl.reading (p : PCfg) (u : PCl) : Bool :=
  match u.pc with
  | .disp _ => u.connected && decide (u.queue.length = u.limit p)
  | .flush => !u.queue.isEmpty
  | _ => false

/-- `write` is being executed: 389-394 / 334-339. -/
def PCl.writing (p : PCfg) (u : PCl) : Option Buf :=
  match u.pc with
  | .disp b => if u.connected && decide (u.queue.length ≠ u.limit p) then some b else none
  | _ => none

/-- What `File::write` does to the memory of the device: 233-276; mmap (219-243) writes eight bytes at a time, and the last word,
if their number is odd, together with four zero bytes. -/
def writeWords (k : PKind) (ws : List W) : List W := if k = .mmap ∧ ws.length % 2 = 1 then ws ++ [0#32] else ws

/-- The rest of `write`, 526-538 / 457-469. Addresses are 32-bit byte addresses. -/
def PCl.write {ρ : Type} (p : PCfg) (b : Buf) (d : PDev ρ) (u : PCl) : PDev ρ × PCl :=
  ({ d with req := d.req.blit ((u.idx * u.size) % 2 ^ 30) (writeWords p.kind (pageHeader b.send.length :: b.send))
            written := d.written + 1, reqs := d.reqs ++ [b.send] },
   { u with idx := (u.idx + 1) % u.pages, queue := u.queue ++ [(b, d.written)], pc := .idle })

/-- Number of words read from a page, 613-616 / 516-517. -/
def readCount (p : PCfg) (n : Nat) : Nat :=
  (if p.workaround ∧ p.kind ≠ .mmap ∧ (n % 32 = 0 ∨ n % 32 = 28 ∨ n < 4) then n + 4 else n) + 1

/-- Index of the page to read, 544 / 475, in 64-bit arithmetic. -/
def PCl.readPage (u : PCl) : Nat := ((u.idx + 2 ^ 64 - u.queue.length + u.pages) % 2 ^ 64) % u.pages

/-- The rest of `read`, 607-657 / 510-558: the page is read, copied to the slots and validated. -/
def PCl.fetch {ρ : Type} (c : Cfg) (p : PCfg) (d : PDev ρ) (u : PCl) : PCl :=
  match u.queue with
  | [] => u
  | (b, k) :: q =>
    let page := d.rep.get ((4 + u.readPage * u.size) % 2 ^ 30) (readCount p b.replyWords)
    let ws := ((page.drop 1).take b.replyWords).take (pageWords (page.headD 0#32))
    let r := receiveReply c u.heap b ws
    let u' := { u with rd := u.rd + 1#32, queue := q, waited := false, heap := r.2, got := u.got ++ [(b, k, u.readPage, ws, r.1)] }
    match r.1 with
    | .ok => u'
    | .err _ => { u' with pc := .thrown }
    | .ub => { u' with crashed := true, pc := .dead }

/-- Steps. -/
inductive PAct
  /-- the device processes a request -/
  | dev
  /-- client `i`: `implementDispatch ( b )` is called -/
  | call (i : Nat) (b : Buf)
  /-- `Flush` is called; `ClientInterface::dispatch` does so only after an `implementDispatch` (ClientInterface.cpp 165-171),
  which leaves the file locked -/
  | callFlush (i : Nat)
  /-- `connect` -/
  | connect (i : Nat)
  /-- the status words are read, 581-588 / 485-492 -/
  | poll (i : Nat)
  /-- the events file is read, 554-557 -/
  | event (i : Nat)
  /-- the page is read -/
  | fetch (i : Nat)
  /-- `lock`, 512-513 / 443-444 -/
  | flock (i : Nat)
  /-- the session is started, 515-523 / 446-454 -/
  | start (i : Nat)
  /-- the packet is written -/
  | write (i : Nat)
  /-- in `Flush`, the lock is released, 404 / 349 -/
  | unlock (i : Nat)
  /-- in `Flush`, the session is ended, 406-407 / 351-352 -/
  | finish (i : Nat)
  /-- an access fails or times out -/
  | fail (i : Nat)
  /-- `dispatchExceptionHandler`, 411-422 / 356-367 -/
  | handler (i : Nat)
  /-- the process dies -/
  | crash (i : Nat)
  /-- the process dies in `startSession`, after `mCount++` and before `mSessionActive = true`, RobustSessionMutex.cpp 91-92 -/
  | halfStart (i : Nat)

/-- Release of the file lock by `i`. -/
def PW.release {ρ : Type} (w : PW ρ) (i : Nat) : PW ρ := { w with lock := if w.lock = some i then none else w.lock }

section
variable {ρ : Type} (c : Cfg) (ps : Nat → PCfg) (resp : ρ → List W → Option (List W) × ρ)

/-- A step. Steps that are not possible in the present state change nothing. -/
def PW.act (w : PW ρ) : PAct → PW ρ
  | .dev => { w with dev := w.dev.answer resp }
  | .call i b => if (w.cl i).pc = .idle then w.set i { w.cl i with pc := .disp b } else w
  | .callFlush i => if (w.cl i).pc = .idle ∧ (w.cl i).have_ then w.set i { w.cl i with pc := .flush } else w
  | .connect i =>
    let u := w.cl i
    match u.pc with
    | .idle => if u.connected then w else w.set i (u.connect (ps i) w.dev w.active w.ctr)
    | .disp _ => if u.connected then w else w.set i (u.connect (ps i) w.dev w.active w.ctr)
    | _ => w
  | .poll i =>
    let u := w.cl i
    if u.reading (ps i) ∧ u.rd = u.pub ∧ (ps i).kind ≠ .intr ∧ w.dev.count ≠ u.pub then
      w.set i { u with pub := w.dev.count }
    else w
  | .event i =>
    let u := w.cl i
    if u.reading (ps i) ∧ u.rd = u.pub ∧ u.waited = false ∧ (ps i).kind = .intr ∧ w.dev.irq then
      { w with dev := { w.dev with irq := false } }.set i { u with waited := true }
    else w
  | .fetch i =>
    let u := w.cl i
    if u.reading (ps i) ∧ (u.rd ≠ u.pub ∨ u.waited) then w.set i (u.fetch c (ps i) w.dev) else w
  | .flock i =>
    let u := w.cl i
    if (u.writing (ps i)).isSome ∧ u.have_ = false ∧ w.lock = none then
      { w with lock := some i }.set i { u with have_ := true, started := false }
    else w
  | .start i =>
    let u := w.cl i
    if (u.writing (ps i)).isSome ∧ u.have_ ∧ u.started = false then
      let u := { u with started := true, sess := u.sess + 1 }
      let w := { w with ctr := w.ctr + 1, active := true, late := w.late || decide (w.dev.done < w.dev.written) }
      w.set i (if u.ext ∨ w.ctr ≠ u.sess then u.connect (ps i) w.dev w.active w.ctr else u)
    else w
  | .write i =>
    let u := w.cl i
    match u.writing (ps i) with
    | some b => if u.have_ ∧ u.started then let r := u.write (ps i) b w.dev; { w with dev := r.1 }.set i r.2 else w
    | none => w
  | .unlock i =>
    let u := w.cl i
    if u.pc = .flush ∧ u.queue = [] then (w.release i).set i { u with have_ := false, started := false, pc := .flushed } else w
  | .finish i =>
    let u := w.cl i
    if u.pc = .flushed then { w with active := false, raced := w.raced || decide (w.ctr ≠ u.sess) }.set i { u with pc := .idle } else w
  | .fail i =>
    let u := w.cl i
    match u.pc with
    | .disp _ => w.set i { u with pc := .thrown }
    | .flush => if u.queue = [] then w else w.set i { u with pc := .thrown }
    | _ => w
  | .handler i =>
    let u := w.cl i
    if u.pc = .thrown then
      (w.release i).set i { u with pc := .idle, queue := [], have_ := false, started := false, connected := false, waited := false }
    else w
  | .crash i => (w.release i).set i { w.cl i with pc := .dead, queue := [], have_ := false, started := false }
  | .halfStart i =>
    let u := w.cl i
    if (u.writing (ps i)).isSome ∧ u.have_ ∧ u.started = false then
      ({ w with ctr := w.ctr + 1 }.release i).set i { u with pc := .dead, queue := [], have_ := false, started := false }
    else w

/-- All schedules. -/
def PW.sched (w : PW ρ) (as : List PAct) : PW ρ := as.foldl (PW.act c ps resp) w

end

/-! ### The mapping of the mmap client -/

/-- `MAP_SIZE`, ProtocolMmap.cpp 117. -/
def mapSize : Nat := 32 * 1024 + 16

/-- The kernel maps whole pages (of 4096 bytes; the code asks for the page size, 132). -/
def mappedBytes : Nat := 36864

/-- Bytes accessed by `File::read`, relative to the start of the mapping, as start and length; `none`: exception.
ProtocolMmap.cpp 167-188 and 132-136. `addr` and `n` are `uint32_t` and so is the sum that is compared. -/
def mmapRead (offset : Nat) (addr n : W) : Option (Nat × Nat) :=
  if (4#32 * addr + 4#32 * n).toNat > mapSize then none else some (offset % 4096 + (4#32 * addr).toNat, 4 * n.toNat)

/-- Bytes written by `File::write`, ProtocolMmap.cpp 191-244; `addr` is a byte address, `n` the number of words. -/
def mmapWrite (offset : Nat) (addr : W) (n : Nat) : Option (Nat × Nat) :=
  if addr.toNat + 4 * n > mapSize then none else some (offset % 4096 + addr.toNat, 4 * (if n % 2 = 1 then n + 1 else n))

/-- `mMmapPtr`: null, `(void*) -1`, or a mapping. -/
inductive MapPtr
  | null
  | failed
  | mapped
deriving DecidableEq

/-- `Mmap::File`: `mFd ≠ -1`, `mMmapPtr`. -/
structure MFile where
  fd : Bool
  ptr : MapPtr
deriving DecidableEq

/-- Outcome of an access: exception, access through the mapping, access through a pointer that points nowhere. -/
inductive MOut
  | thrown
  | fine
  | wild
deriving DecidableEq

/-- Calls: an access (`read` or `write`; do `open` and `mmap` succeed, if called?), `close` (does `munmap` succeed?). -/
inductive MCall
  | access (openOk mapOk : Bool)
  | close
deriving DecidableEq

/-- `open`, 121-144, `close`, 147-164, and the beginning of `read` and `write`, 169-170, 193-194. `munmap` of a mapping succeeds, that
of `(void*) -1` fails. -/
def MFile.call (f : MFile) : MCall → MFile × MOut
  | .access o m =>
    if f.fd then (f, if f.ptr = .mapped then .fine else .wild)
    else if ¬ o then (f, .thrown)
    else if ¬ m then (⟨true, .failed⟩, .thrown)
    else (⟨true, .mapped⟩, .fine)
  | .close => (⟨false, if f.ptr = .mapped then .null else f.ptr⟩, .fine)

end Verif
