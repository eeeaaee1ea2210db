import Verif.Model.PagedProg
import Verif.Model.Dummy
/-!
# The PCIe test target

Model of `PCIeDummyHardware` (/repo/uhal/tests/src/common/PCIeDummyHardware.cpp; line numbers without a file refer to it), and of PCIe clients connected to it. The
clients write requests into a FIFO, one behind the other; the target writes replies and the status words into a file from which the clients read. The clients are those of
`Verif/Model/Paged.lean`, where the target is a device with request pages that answers in one step; here it is the program, step by step.

Simplifications:
* The FIFO is one of words. `PCIe::File::write` (ProtocolPCIe.cpp 233-276) writes a packet with its header by one call, of less than `PIPE_BUF` bytes, which is atomic.
  That the FIFO is full, or that it is closed at the other end, is left out.
* A call of `write` for the file is atomic.
* The length of the file is left out: reads behind its end, which fail, give what lies there in an infinite file.
* The delay of replies and log messages are left out.
-/

set_option autoImplicit false

namespace Verif.PcieDummy
open Verif.Dummy (DH)

/-- Where `run` is. -/
inductive Phase
  /-- 127-135: waiting for data -/
  | poll
  /-- 150-158: the page header has been read; it announces `n` words -/
  | head (n : Nat)
  /-- 161-164: the reply is ready -/
  | reply (r : List W)
  /-- 165-168: the page header has been written -/
  | body (r : List W)
  /-- 170-175: the page has been written -/
  | status
  /-- 144-147: `run` has returned early -/
  | returned
  /-- an assertion has failed or an exception has been thrown -/
  | aborted
  /-- the behaviour is undefined -/
  | undefined
deriving DecidableEq

/-- The target. -/
structure FDev where
  /-- words in the FIFO, oldest first -/
  fifo : List W
  /-- the file from which clients read, by word -/
  file : Mem
  /-- `mNextPageIndex` -/
  next : W
  /-- `mPublishedPageCount` -/
  count : W
  /-- the base class -/
  hw : DH
  phase : Phase

/-- The constructor, 58-103. -/
def FDev.init (pid : BitVec 16) (hack : Bool) : FDev :=
  ⟨[], Mem.blit (fun _ => 0#32) 0 [3#32, 360#32, 0#32, 0#32], 0#32, 0#32, DH.init pid hack, .poll⟩

/-- A step of `run`, 122-179: until something is read from the FIFO or written to the file. `fifoRead`, 189-216: for 0 words, `::read` returns 0 and an assertion
fails (207). -/
def FDev.step (s : FDev) : FDev :=
  match s.phase with
  | .poll => match s.fifo with
    | [] => s
    | h :: t => { s with fifo := t, phase := if 360 ≤ pageWords h then .returned else .head (pageWords h) }
  | .head n =>
    if n = 0 then { s with phase := .aborted }
    else if s.fifo.length < n then s
    else match DH.process .v2 { s.hw with reply := [] } (s.fifo.take n) with
      | .ok d => { s with fifo := s.fifo.drop n, hw := d, phase := .reply d.reply }
      | .threw => { s with phase := .aborted }
      | .ub => { s with phase := .undefined }
  | .reply r => { s with file := s.file.blit (4 + s.next.toNat * 360) [pageHeader r.length], phase := .body r }
  | .body r => { s with file := s.file.blit (4 + s.next.toNat * 360 + 1) r, next := (s.next + 1#32) % 3#32, count := s.count + 1#32, phase := .status }
  | .status => { s with file := s.file.blit 0 [3#32, 360#32, s.next, s.count], phase := .poll }
  | .returned | .aborted | .undefined => s

/-- The target and its clients, as in `PW`. -/
structure FW where
  dev : FDev
  ctr : Nat
  active : Bool
  lock : Option Nat
  cl : Nat → PCl
  raced : Bool
  late : Bool
  /-- ghost: requests written -/
  written : Nat
  /-- ghost: pages published -/
  done : Nat

/-- What the clients see of the target, in the form in which `Verif/Model/Paged.lean` expects it: the status words (`connect`, ProtocolPCIe.cpp 462-474) and the
pages. -/
def FW.seen (w : FW) : PDev Unit where
  pages := (w.dev.file 0).toNat
  size := (w.dev.file 1).toNat
  start := (w.dev.file 2).toNat
  count0 := w.dev.file 3
  req := fun _ => 0#32
  rep := w.dev.file
  written := w.written - w.done
  done := 0
  hung := false
  irq := false
  env := ()
  reqs := []
  ans := []

/-- The clients. -/
def FW.clients (w : FW) : PW Unit := ⟨w.seen, w.ctr, w.active, w.lock, w.cl, w.raced, w.late⟩

/-- In the beginning. -/
def FW.init (ps : Nat → PCfg) (pid : BitVec 16) (hack : Bool) : FW where
  dev := .init pid hack
  ctr := 0
  active := false
  lock := none
  cl := fun i => .init (ps i)
  raced := false
  late := false
  written := 0
  done := 0

section
variable (c : Cfg) (ps : Nat → PCfg)

/-- A step. What is written by a client (ProtocolPCIe.cpp 526-538) goes to the FIFO; all the rest is as in `PW.act`. -/
def FW.act (w : FW) (a : PAct) : FW :=
  match a with
  | .dev => { w with dev := w.dev.step, done := if w.dev.phase = .status then w.done + 1 else w.done }
  | .write i => match (w.cl i).writing (ps i) with
    | some b =>
      if (w.cl i).have_ ∧ (w.cl i).started then
        { w with
          dev := { w.dev with fifo := w.dev.fifo ++ pageHeader b.send.length :: b.send }
          cl := fun j => if j = i then ((w.cl i).write (ps i) b { w.seen with written := w.written }).2 else w.cl j
          written := w.written + 1 }
      else w
    | none => w
  | a =>
    let v := w.clients.act c ps (fun e _ => (none, e)) a
    { w with ctr := v.ctr, active := v.active, lock := v.lock, cl := v.cl, raced := v.raced, late := v.late }

/-- All schedules. -/
def FW.sched (w : FW) (as : List PAct) : FW := as.foldl (FW.act c ps) w

/-! ### Programs of one client -/

variable (i : Nat)

/-- As `PW.inner`. -/
def FW.inner (w : FW) (a : PAct) : FW := if a.who = some i ∧ (w.cl i).pc.inside = false then w else w.act c ps a

/-- Ghost: the steps of the clients, and the publication of pages. -/
def FW.trace : FW → List PAct → List PAct
  | _, [] => []
  | w, a :: as => (if a.who = none ∧ w.dev.phase ≠ .status then [] else [a]) ++ (w.inner c ps i a).trace as

/-- As `PagedT`. -/
structure FT where
  w : FW
  plan : List (List PAct)
  /-- ghost -/
  trace : List (List PAct)

/-- As `PagedT.result`. -/
def FT.result (t : FT) (u0 u : PCl) : Out FT Unit :=
  match u.pc with
  | .idle => .ok () t
  | .thrown => .exc ((u0.refused u).getD (.transport 0)) t
  | .dead => .ub
  | _ => .loops

/-- As `pagedT`: `implementDispatch`, `Flush` and `dispatchExceptionHandler` of client `i`, ProtocolPCIe.cpp 385-422. -/
def fifoT : Transport FT where
  disp t b :=
    let w0 := t.w.act c ps (.call i b)
    let as := t.plan.headD []
    let w := as.foldl (FW.inner c ps i) w0
    FT.result ⟨w, t.plan.tail, t.trace ++ [w0.trace c ps i as]⟩ (t.w.cl i) (w.cl i)
  flush t :=
    let w0 := t.w.act c ps (.callFlush i)
    let as := t.plan.headD []
    let w := as.foldl (FW.inner c ps i) w0
    FT.result ⟨w, t.plan.tail, t.trace ++ [w0.trace c ps i as]⟩ (t.w.cl i) (w.cl i)
  handler t := { t with w := { t.w with cl := fun j => if j = i then { t.w.cl i with pc := .thrown } else t.w.cl j }.act c ps (.handler i) }

/-- At the start. -/
def FT.init (pid : BitVec 16) (plan : List (List PAct)) : FT := ⟨.init ps pid false, plan, []⟩

end
end Verif.PcieDummy
