/-!
# SIGBUS protection

Models `SigBusGuard` (/repo/uhal/uhal/src/common/SigBusGuard.cpp) used by any number of threads, one step per lock operation or system
call. The process has one handler for SIGBUS; every thread has a signal mask. User code of a thread that is not using a guard can
change its own mask, and can change the handler while no guard exists; `wantHandler` and `wantMask` record (for the statements only)
what user code has set last. Signal numbers are natural numbers.

Simplifications: only SIGBUS caused by the access itself (`protect`) is modelled, not a SIGBUS sent by another process; logging is left
out; a thread does not construct a second guard while it has one (the second would lock a mutex that the thread already owns).
-/

set_option autoImplicit false

namespace Verif.SigBus

/-- Signal numbers (Linux). -/
def SIGINT : Nat := 2
def SIGBUS : Nat := 7
def SIGKILL : Nat := 9
def SIGSTOP : Nat := 19

/-- A handler: some handler of the user (or the default action), or `SigBusGuard::handle`. -/
inductive Handler
  | user (k : Nat)
  | uhal
deriving DecidableEq, Repr

/-- A signal mask: which signals are blocked. -/
abbrev Mask := Nat → Bool

/-- `lMaskedSignals` in the constructor, SigBusGuard.cpp:65-70. -/
def guardMask : Mask := fun n => n ≠ SIGKILL && n ≠ SIGSTOP && n ≠ SIGINT && n ≠ SIGBUS

/-- Where a thread is. -/
inductive Pc
  /-- no guard -/
  | out
  /-- constructor, `mLockGuard` holds the mutex, SigBusGuard.cpp:48 -/
  | locked
  /-- constructor, after `sigaction`, line 56 -/
  | installed (orig : Handler)
  /-- constructor finished -/
  | guarded (orig : Handler) (m : Mask)
  /-- in `aAccess()`, line 114; `jm` is the mask that `sigsetjmp` saved -/
  | access (orig : Handler) (m jm : Mask)
  /-- destructor, after line 86 -/
  | leaving (m : Mask)
  /-- destructor, after line 92 (or the constructor throwing): the mutex is to be unlocked -/
  | unlocking

structure Thread where
  pc : Pc
  mask : Mask
  wantMask : Mask

structure St where
  handler : Handler
  mutex : Option Nat
  prot : Bool
  th : Nat → Thread
  wantHandler : Handler
  /-- a SIGBUS arrived that was blocked (the process is killed) or went to a handler other than uHAL's -/
  lost : Bool

/-- What can happen next in a thread. `fails` says that the system call at that point fails. -/
inductive Ev
  | setMask (m : Mask)
  | setHandler (k : Nat)
  | lock
  | sigaction (fails : Bool)
  | sigmask (fails : Bool)
  | protect
  | done
  | throw
  | sigbus
  | restoreHandler (fails : Bool)
  | restoreMask (fails : Bool)
  | unlock

def St.set (s : St) (i : Nat) (t : Thread) : St := { s with th := fun j => if j = i then t else s.th j }

/-- One step of thread `i`; `none` if it cannot happen. -/
def St.step (s : St) (i : Nat) (e : Ev) : Option St :=
  let t := s.th i
  match t.pc, e with
  -- user code
  | .out, .setMask m => some (s.set i { t with mask := m, wantMask := m })
  | .out, .setHandler k => if s.mutex = none then some { s with handler := .user k, wantHandler := .user k } else none
  -- constructor: mLockGuard(sMutex), line 48
  | .out, .lock => if s.mutex = none then some ({ s with mutex := some i }.set i { t with pc := .locked }) else none
  -- sigaction, lines 54-61
  | .locked, .sigaction true => some (s.set i { t with pc := .unlocking })
  | .locked, .sigaction false => some ({ s with handler := .uhal }.set i { t with pc := .installed s.handler })
  -- pthread_sigmask and the check that SIGBUS was blocked, lines 71-80; an exception leaves the constructor, the destructor does not run
  | .installed _, .sigmask true => some (s.set i { t with pc := .unlocking })
  | .installed o, .sigmask false =>
    if t.mask SIGBUS then some (s.set i { t with mask := guardMask, pc := .guarded o t.mask })
    else some (s.set i { t with mask := guardMask, pc := .unlocking })
  -- protect, lines 98-118
  | .guarded o m, .protect => some ({ s with prot := true }.set i { t with pc := .access o m t.mask })
  | .access o m _, .done => some ({ s with prot := false }.set i { t with pc := .guarded o m })
  -- aAccess throws: sProtected stays 1
  | .access o m _, .throw => some (s.set i { t with pc := .guarded o m })
  -- SIGBUS during aAccess: handle, lines 135-147, siglongjmp restores the mask saved by sigsetjmp; then protect throws
  | .access o m jm, .sigbus =>
    if t.mask SIGBUS = false ∧ s.handler = .uhal then some ({ s with prot := false }.set i { t with pc := .guarded o m, mask := jm })
    else some { s with lost := true }
  -- destructor, lines 83-95; failures are only logged
  | .guarded o m, .restoreHandler f => some ({ s with handler := if f then s.handler else o }.set i { t with pc := .leaving m })
  | .leaving m, .restoreMask f => some (s.set i { t with pc := .unlocking, mask := if f then t.mask else m })
  | .unlocking, .unlock => some ({ s with mutex := none }.set i { t with pc := .out })
  | _, _ => none

/-- A sequence of steps. -/
def St.run (s : St) : List (Nat × Ev) → Option St
  | [] => some s
  | (i, e) :: es => match s.step i e with
    | some s' => s'.run es
    | none => none

/-- The start: no guard. -/
def start (h : Nat) (masks : Nat → Mask) : St :=
  ⟨.user h, none, false, fun i => ⟨.out, masks i, masks i⟩, .user h, false⟩

end Verif.SigBus
