/-!
# The mutex in shared memory, instruction by instruction

`/repo/uhal/uhal/src/common/detail/RobustSessionMutex.cpp` and the four sections that PCIe and mmap clients execute under it
(`ProtocolPCIe.cpp` 404-407, 443-462, 515-523, 533-538; `ProtocolMmap.cpp` 349-352, 388-408, 446-454, 464-469). `Paged` takes these sections
for single steps; here each access to the shared memory is a step of its own, any number of threads of any number of processes take their steps in
any order, and a thread may die at any moment.

The mutex is that of POSIX (`pthread_mutex_lock`, `pthread_mutex_consistent`, `pthread_mutex_unlock`), with the attributes that the constructor sets.

Simplifications (all of them):
* The accesses to the device in the sections are left out; if they throw, the mutex is unlocked by the destructor of the guard, as otherwise.
* Accesses to shared memory under the mutex are seen in the order of the program by the next owner (this is what a mutex is for).
* `pthread_mutex_lock` and `pthread_mutex_consistent` have no other errors than those below; the mutex is initialised once (`find_or_construct`, SharedObject.cpp:12-17).
* A number is a client object in a thread; a process that starts again has other numbers. A client uses the device in one thread at a time.
-/

set_option autoImplicit false

namespace Verif.Robust

/-- `pthread_mutex_t` in a process-shared memory. -/
structure Mutex where
  pshared : Bool
  robust : Bool
  owner : Option Nat
  /-- the owner, or the last one, got the mutex from a thread that died, and has not called `pthread_mutex_consistent`; or the last owner has died -/
  inconsistent : Bool
  /-- `ENOTRECOVERABLE` -/
  lost : Bool
deriving DecidableEq, Repr

/-- RobustSessionMutex.cpp:20-40: `pthread_mutexattr_init`, `setpshared`, `setrobust`, `pthread_mutex_init`. -/
def Mutex.init : Mutex := ⟨true, true, none, false, false⟩

/-- What `pthread_mutex_lock` returns, if it returns. -/
inductive Ret
  | zero
  | ownerDead
  | notRecoverable
deriving DecidableEq, Repr

/-- `pthread_mutex_lock` of thread `i`; `none`: it waits. -/
def Mutex.lock (m : Mutex) (i : Nat) : Option (Ret × Mutex) :=
  if m.lost then some (.notRecoverable, m)
  else match m.owner with
    | some _ => none
    | none => some (if m.inconsistent then .ownerDead else .zero, { m with owner := some i })

/-- `pthread_mutex_consistent`. -/
def Mutex.consistent (m : Mutex) : Mutex := { m with inconsistent := false }

/-- `pthread_mutex_unlock` of the owner. -/
def Mutex.unlock (m : Mutex) : Mutex := { m with owner := none, lost := m.lost || m.inconsistent, inconsistent := false }

/-- Thread `i` ends. Only for robust mutexes anybody takes notice. -/
def Mutex.died (m : Mutex) (i : Nat) : Mutex :=
  if m.owner = some i ∧ m.robust then { m with owner := none, inconsistent := true } else m

/-- Instructions, in the order in which they are in the code. -/
inductive Ins
  /-- `startSession`, `mCount++`: the counter is read, RobustSessionMutex.cpp:91 -/
  | load
  /-- … and written -/
  | store
  /-- `mSessionActive = true`, 92 -/
  | activate
  /-- `mIPCSessionCount++`, ProtocolPCIe.cpp:517, ProtocolMmap.cpp:448 -/
  | bump
  /-- `if (mIPCExternalSessionActive or (mIPCMutex->getCounter() != mIPCSessionCount))`, 521, 452 -/
  | test
  /-- `mIPCExternalSessionActive = mIPCMutex->isActive() and (not haveLock())`, 454, 399 -/
  | isActive
  /-- `mIPCSessionCount = mIPCMutex->getCounter()`, 455, 400 -/
  | getCounter
  /-- `mSessionActive = false`, RobustSessionMutex.cpp:97 -/
  | deactivate
  /-- `aGuard.unlock()`, 462, 408, or the destructor of the guard -/
  | unlock
deriving DecidableEq, Repr

/-- What a client executes under the mutex. -/
inductive Sect
  /-- in `write`, after the file has been locked, ProtocolPCIe.cpp:515-523, ProtocolMmap.cpp:446-454 -/
  | start
  /-- `connect`, 443-462, 388-408 -/
  | look
  /-- in `Flush`, 406-407, 351-352 -/
  | finish
  /-- in `write`, 533-538, 464-469 -/
  | write
deriving DecidableEq, Repr

/-- The first instruction of a section. -/
def Sect.entry : Sect → Ins
  | .start => .load
  | .look => .isActive
  | .finish => .deactivate
  | .write => .unlock

inductive Pc
  /-- outside -/
  | out
  /-- in `pthread_mutex_lock` -/
  | wait (s : Sect)
  /-- `EOWNERDEAD` has been returned, RobustSessionMutex.cpp:57-59 -/
  | told (s : Sect)
  /-- before an instruction of a section -/
  | at (s : Sect) (k : Ins)
  /-- `lock` has thrown, 61-65 -/
  | thrown
  | dead
deriving DecidableEq, Repr

/-- A client. -/
structure Cl where
  pc : Pc
  /-- `haveLock()` of its device file -/
  have_ : Bool
  /-- `mIPCExternalSessionActive` -/
  ext : Bool
  /-- `mIPCSessionCount`, `uint64_t` -/
  sess : BitVec 64
  /-- register of `mCount++` -/
  reg : BitVec 64
deriving DecidableEq, Repr

/-- Everything. -/
structure Sys where
  mutex : Mutex
  /-- `mCount` -/
  count : BitVec 64
  /-- `mSessionActive` -/
  active : Bool
  cl : Nat → Cl

/-- RobustSessionMutex.cpp:13-15; the members of clients are not initialised (ProtocolPCIe.cpp:315-330). -/
def Sys.init (cl : Nat → Cl) : Sys := ⟨.init, 0, false, fun i => { cl i with pc := .out }⟩

def Sys.set (s : Sys) (i : Nat) (c : Cl) : Sys := { s with cl := fun j => if j = i then c else s.cl j }

/-- `RobustSessionMutex::lock`, RobustSessionMutex.cpp:56-65, after `pthread_mutex_lock` has returned. -/
def afterLock (s : Sect) : Ret → Pc
  | .zero => .at s s.entry
  | .ownerDead => .told s
  | .notRecoverable => .thrown

/-- Client `i` executes instruction `k` of section `s`. -/
def Sys.ins (x : Sys) (i : Nat) (s : Sect) : Ins → Sys
  | .load => x.set i { x.cl i with reg := x.count, pc := .at s .store }
  | .store => { x with count := (x.cl i).reg + 1 }.set i { x.cl i with pc := .at s .activate }
  | .activate => { x with active := true }.set i { x.cl i with pc := .at s .bump }
  | .bump => x.set i { x.cl i with sess := (x.cl i).sess + 1, pc := .at s .test }
  | .test => x.set i { x.cl i with pc := .at s (if (x.cl i).ext ∨ x.count ≠ (x.cl i).sess then .isActive else .unlock) }
  | .isActive => x.set i { x.cl i with ext := x.active && !(x.cl i).have_, pc := .at s .getCounter }
  | .getCounter => x.set i { x.cl i with sess := x.count, pc := .at s .unlock }
  | .deactivate => { x with active := false }.set i { x.cl i with pc := .at s .unlock }
  | .unlock => { x with mutex := x.mutex.unlock }.set i { x.cl i with pc := .out }

inductive Act
  /-- the device file is locked or unlocked, `mLocked` is set, ProtocolPCIe.cpp:285-303 -/
  | file (i : Nat) (b : Bool)
  /-- `pthread_mutex_lock` is called for a section -/
  | call (i : Nat) (s : Sect)
  /-- it returns -/
  | lock (i : Nat)
  /-- `pthread_mutex_consistent` -/
  | consistent (i : Nat)
  /-- the next instruction -/
  | ins (i : Nat)
  | die (i : Nat)
deriving DecidableEq, Repr

/-- A step; `none` if it is not possible now. `write` starts a session after locking the file (512-516). -/
def Sys.step (x : Sys) : Act → Option Sys
  | .file i b => if (x.cl i).pc = .out then some (x.set i { x.cl i with have_ := b }) else none
  | .call i s => if (x.cl i).pc = .out ∧ (s = .start → (x.cl i).have_ = true) then some (x.set i { x.cl i with pc := .wait s }) else none
  | .lock i => match (x.cl i).pc with
    | .wait s => match x.mutex.lock i with
      | some (r, m) => some ({ x with mutex := m }.set i { x.cl i with pc := afterLock s r })
      | none => none
    | _ => none
  | .consistent i => match (x.cl i).pc with
    | .told s => some ({ x with mutex := x.mutex.consistent }.set i { x.cl i with pc := .at s s.entry })
    | _ => none
  | .ins i => match (x.cl i).pc with
    | .at s k => some (x.ins i s k)
    | _ => none
  | .die i => if (x.cl i).pc = .dead then none else some ({ x with mutex := x.mutex.died i }.set i { x.cl i with pc := .dead })

def Sys.run (x : Sys) : List Act → Option Sys
  | [] => some x
  | a :: as => match x.step a with
    | some x => x.run as
    | none => none

end Verif.Robust
