import Verif.Model.Paged
/-!
# The device files of PCIe clients

`PCIe::File`, /repo/uhal/uhal/src/common/ProtocolPCIe.cpp:76-303, and the names of the shared memory (306-312, ProtocolMmap.cpp:274-280). The state machine of `Paged` is about the words that
come out and go in; here are the system calls, the buffer and the file lock.

Simplifications:
* What the system does in a call is given: whether opening, allocating, seeking, locking succeed, and how many bytes `read` and `write` transfer, at most as many as asked for and at most
  `0x7FFFF000` (as on Linux). If `lseek` succeeds it goes where it is told; any other result counts as failure.
* `flock` does not return before it has the lock or has failed. The lock goes when the file is closed.
* Bytes of the buffer that nobody wrote are indeterminate; to use them counts as undefined behaviour. Hosts are little-endian.
* A failing `assert` is the outcome `asserts`.
-/

set_option autoImplicit false

namespace Verif.PFile

abbrev Byte := BitVec 8

/-- The members of `PCIe::File`, include/uhal/ProtocolPCIe.hpp:109-116. `buf` is `mBuffer` (the bytes allocated there), `size` is `mBufferSize`. -/
structure File where
  /-- `mFd` is not -1 -/
  fd : Bool := false
  locked : Bool := false
  buf : Option Nat := none
  size : Nat := 0

/-- The other side: the bytes of the device, what went through if it is a FIFO, and whether this file holds the lock. -/
structure Dev where
  mem : Nat → Byte
  fifo : List Byte := []
  held : Bool := false

/-- What the system does. `count = none`: -1. -/
structure Os where
  opens : Bool := true
  memory : Bool := true
  seeks : Bool := true
  fifo : Bool := false
  count : Option Nat := none
  locks : Bool := true
  unlocks : Bool := true

inductive Err
  /-- `PCIeInitialisationError`, `PCIeCommunicationError`, `MutexError` -/
  | init | comm | mutex
deriving DecidableEq

inductive Out (α : Type)
  | ok (a : α)
  | throws (e : Err)
  | asserts
  | ub
deriving DecidableEq

/-- `open`, 106-117. -/
def open_ (os : Os) (f : File) : File × Bool := if f.fd then (f, true) else if os.opens then ({ f with fd := true }, true) else (f, false)

/-- `createBuffer`, 134-154. -/
def createBuffer (os : Os) (n : Nat) (f : File) : File × Bool :=
  match f.buf with
  | some _ => if n ≤ f.size then (f, true)
    else if os.memory then ({ f with buf := some (n + 4096), size := n + 4096 }, true) else ({ f with buf := none, size := 0 }, false)
  | none => if os.memory then ({ f with buf := some (n + 4096), size := n + 4096 }, true) else (f, false)

/-- Bytes transferred by a call that asks for `n`. -/
def Os.moved (os : Os) (n : Nat) : Option Nat := os.count.map fun k => min k (min n 0x7FFFF000)

/-- Four bytes as a word. -/
def word (b : Nat → Byte) (a : Nat) : W := (b (a + 3) ++ b (a + 2)) ++ (b (a + 1) ++ b a)

/-- `read`, 157-186. `4*aAddr` and `4*aNrWords` are 32-bit products. -/
def read (os : Os) (addr nr : W) (vals : List W) (f : File) (d : Dev) : File × Out (List W) :=
  match open_ os f with
  | (f, false) => (f, .throws .init)
  | (f, true) =>
    let n := (4#32 * nr).toNat
    match createBuffer os n f with
    | (f, false) => (f, .throws .comm)
    | (f, true) =>
      if os.seeks = false then (f, .throws .comm)
      else match os.moved n with
        | none => (f, .throws .comm)
        | some rc =>
          if rc < n then (f, .throws .comm)
          else if n < 4 * nr.toNat ∨ f.buf.getD 0 < n then (f, .ub)
          else (f, .ok (vals ++ (List.range nr.toNat).map fun i => word d.mem ((4#32 * addr).toNat + 4 * i)))

/-- The bytes in the buffer after the chunks have been copied, 245-250. `none`: beyond its end. -/
def gather (room : Nat) : List (List Byte) → List Byte → Option (List Byte)
  | [], acc => some acc
  | c :: cs, acc => if acc.length + c.length ≤ room then gather room cs (acc ++ c) else none

/-- `k` bytes arrive at the position. -/
def Dev.put (d : Dev) (pos : Nat) (bs : List Byte) : Dev :=
  { d with mem := fun x => if pos ≤ x then (bs[x - pos]?).getD (d.mem x) else d.mem x }

/-- `write`, 233-276 (and 189-230, with one chunk). -/
def write (os : Os) (addr : W) (chunks : List (List Byte)) (f : File) (d : Dev) : File × Dev × Out Unit :=
  match open_ os f with
  | (f, false) => (f, d, .throws .init)
  | (f, true) =>
    let n := (chunks.map List.length).sum
    if n % 4 ≠ 0 then (f, d, .asserts)
    else match createBuffer os n f with
      | (f, false) => (f, d, .throws .comm)
      | (f, true) =>
        match gather (f.buf.getD 0) chunks [] with
        | none => (f, d, .ub)
        | some bs =>
          if os.seeks = false ∧ os.fifo = false then (f, d, .throws .comm)
          else match os.moved n with
            | none => (f, d, .throws .comm)
            | some rc =>
              let d' := if os.seeks then d.put addr.toNat (bs.take rc) else { d with fifo := d.fifo ++ bs.take rc }
              if rc < n then (f, d', .throws .comm) else (f, d', .ok ())

/-- `lock`, 285-293. -/
def lock (os : Os) (f : File) (d : Dev) : File × Dev × Out Unit :=
  if f.fd ∧ os.locks = true then ({ f with locked := true }, { d with held := true }, .ok ()) else (f, d, .throws .mutex)

/-- `unlock`, 296-303. -/
def unlock (os : Os) (f : File) (d : Dev) : File × Dev :=
  if f.fd ∧ os.unlocks = true then ({ f with locked := false }, { d with held := false }) else (f, d)

/-- `close`, 120-130. -/
def close (os : Os) (f : File) (d : Dev) : File × Dev :=
  if f.fd then
    let r := if f.locked then unlock os f d else (f, d)
    ({ r.1 with fd := false }, { r.2 with held := false })
  else (f, d)

/-- The calls of the client. -/
inductive Call
  | open_ | buffer (n : Nat) | read (addr nr : W) | write (addr : W) (chunks : List (List Byte)) | lock | unlock | close

/-- One call; whether it ran into undefined behaviour. -/
def Call.run (os : Os) (f : File) (d : Dev) : Call → File × Dev × Bool
  | .open_ => ((PFile.open_ os f).1, d, false)
  | .buffer n => ((createBuffer os n f).1, d, false)
  | .read a n => let r := PFile.read os a n [] f d; (r.1, d, decide (r.2 = .ub))
  | .write a cs => let r := PFile.write os a cs f d; (r.1, r.2.1, decide (r.2.2 = .ub))
  | .lock => let r := PFile.lock os f d; (r.1, r.2.1, false)
  | .unlock => let r := PFile.unlock os f d; (r.1, r.2, false)
  | .close => let r := PFile.close os f d; (r.1, r.2, false)

/-- Calls one after the other. -/
def runAll : List (Os × Call) → File → Dev → File × Dev × Bool
  | [], f, d => (f, d, false)
  | (os, c) :: cs, f, d =>
    match c.run os f d with
    | (f, d, true) => (f, d, true)
    | (f, d, false) => runAll cs f d

/-- `getSharedMemName`, 306-312, ProtocolMmap.cpp:274-280. -/
def memName (mmap : Bool) (path : List Char) : List Char :=
  (if mmap then "/uhal::ipbusmmap-2.0::" else "/uhal::ipbuspcie-2.0::").toList ++ path.map fun c => if c = '/' then ':' else c

end Verif.PFile
