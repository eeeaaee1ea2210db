import Verif.Spec.Prog
/-!
# Threads sharing one client

Every public call of a client holds `mUserSideMutex` from its first statement to its return, by a `std::lock_guard`
(src/common/ClientInterface.cpp:143-177 `dispatch`, 408-513 the accesses and `setTimeoutPeriod`;
src/common/ProtocolIPbusCore.cpp:129-139 `readConfigurationSpace`), so also when it throws. A thread here executes its
calls one after the other, each in four steps: take the mutex, look at the client, change the client, give the mutex
back. Steps of different threads interleave in any order.

Simplifications: the body of a call looks at the whole client once and changes it once, so what another thread would see of
a half-made change is not modelled (nobody looks, which is what `C57_one` says); threads catch all exceptions;
looking at the validated values (`ValMem.cpp`), which takes no mutex, is not a step.
-/

set_option autoImplicit false

namespace Verif

/-- Where a thread is: outside the calls of the client; holding the mutex; with what it saw of the client; done but still
holding the mutex. -/
inductive Pc (τ : Type)
  | out
  | inside
  | loaded (s : St τ)
  | stored

/-- One thread: calls it has not finished (the first one may be under way), results so far, place. -/
structure Thr (τ : Type) where
  todo : List Op
  res : List Res
  pc : Pc τ

/-- Client, owner of `mUserSideMutex`, threads. `log` is a ghost: calls in the order in which they took effect. -/
structure Sys (τ : Type) where
  cl : St τ
  owner : Option Nat
  thr : Nat → Thr τ
  log : List (Nat × Op × Res)

/-- Before anything happens. -/
def Sys.init {τ : Type} (prog : Nat → List Op) (s : St τ) : Sys τ := ⟨s, none, fun t => ⟨prog t, [], .out⟩, []⟩

/-- One thread changed. -/
def Sys.put {τ : Type} (s : Sys τ) (t : Nat) (x : Thr τ) : Nat → Thr τ := fun u => if u = t then x else s.thr u

/-- What the user sees of the outcome of a call, with the client afterwards. -/
def outRes {τ : Type} : Out (St τ) (Option Handle) → Option (Res × St τ)
  | .ok h s => some (.ok h, s)
  | .exc e s => some (.exc e, s)
  | .ub => none
  | .loops => none

/-- The next step of thread `t`. `none`: it has nothing to do, waits for the mutex, or is lost in the call. -/
def Sys.step {τ : Type} (c : Cfg) (T : Transport τ) (t : Nat) (s : Sys τ) : Option (Sys τ) :=
  let x := s.thr t
  match x.pc, x.todo with
  | .out, _ :: _ =>
    -- std::lock_guard lLock ( mUserSideMutex )
    if s.owner = none then some { s with owner := some t, thr := s.put t { x with pc := .inside } } else none
  | .inside, _ => some { s with thr := s.put t { x with pc := .loaded s.cl } }
  | .loaded cl, op :: ops =>
    match outRes (op.run c T cl) with
    | some (r, cl') =>
      some { s with cl := cl', thr := s.put t ⟨ops, x.res ++ [r], .stored⟩, log := s.log ++ [(t, op, r)] }
    | none => none
  -- ~lock_guard, on return and on exceptions
  | .stored, _ => some { s with owner := none, thr := s.put t { x with pc := .out } }
  | _, _ => none

/-- Steps of the threads in the given order. -/
def Sys.run {τ : Type} (c : Cfg) (T : Transport τ) : List Nat → Sys τ → Option (Sys τ)
  | [], s => some s
  | t :: ts, s => (s.step c T t).bind (Sys.run c T ts)

end Verif
