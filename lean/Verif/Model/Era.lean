import Verif.Model.Hall
/-!
# Device clients one after the other

A device client that has had nothing to do for `device_client_shutdown_after` milliseconds ends (/repo/controlhub/src/ch_device_client.erl:246-249, 261-270); the next request for its target
makes the registry start another one (/repo/controlhub/src/ch_device_client_registry.erl:66-85, 134-143), with a new UDP socket. The connections (`Verif/Model/Hall.lean`) stay.

Simplifications, in addition to those of `Verif/Model/Hall.lean`:
* A new device client begins here when it has learnt the state of the target (ch_device_client.erl:224-231); the exchange before that is in `Verif/Model/HubFirst.lean`.
* What was cast to a device client that has ended is lost. The number of the process is the same for all of them, since nothing depends on it.
* Device clients that give up, rather than end because there is nothing to do, have no successor here.
-/

set_option autoImplicit false

namespace Verif.TraMgr
open Verif.Hub (Bytes)

/-- All connections, the present device client and the network. `gen`: the number of the device client, i. e. of its socket; `by_`: which one has sent each datagram to the target; `to`: to
which one each datagram of the target is sent. -/
structure Era (σ : Type) where
  hall : Hall σ
  gen : Nat
  by_ : List Nat
  to : List Nat

inductive EEv
  | ev (e : HEv)
  /-- the device client ends, and there is a new one -/
  | renew
deriving DecidableEq, Repr

/-- A datagram reaches the process to which it was sent, or nobody: the socket of a process that has ended is closed. -/
def Era.open_ {σ : Type} (x : Era σ) : HEv → Bool
  | .toHub i => x.to[i]? == some x.gen
  | _ => true

/-- Where replies go: to the sender of the request. -/
def Era.dest {σ : Type} (x : Era σ) : HEv → Nat
  | .toTarget i _ => (x.by_[i]?).getD x.gen
  | _ => x.gen

/-- What the connections cast to the old process is lost. -/
def Conn.lose (c : Conn) : Conn := { c with taken := c.tm.casts.length }

/-- The new process, ch_device_client.erl:224-231; the messages that the old one has sent to the connections are in their mailboxes still. -/
def fresh {σ : Type} (s : Hub.Sys σ) (absMax : Nat) : Hub.Sys σ := { s with hub := ⟨.normal, s.tgt.expected, 0, [], min s.tgt.depth absMax, s.hub.out⟩ }

/-- One step. A device client ends if nothing is in flight, ch_device_client.erl:264-270. -/
def Era.step {σ : Type} (exec : σ → Bytes → σ × Bytes) (absMax : Nat) (mem : Nat → Bool) (p : Nat) (a : Addr) (x : Era σ) : EEv → Option (Era σ)
  | .ev e =>
    if x.open_ e then
      match x.hall.step exec mem p a e with
      | some h => some ⟨h, x.gen, x.by_ ++ List.replicate (h.dc.toT.length - x.by_.length) x.gen, x.to ++ List.replicate (h.dc.toH.length - x.to.length) (x.dest e)⟩
      | none => none
    else none
  | .renew =>
    if x.hall.dc.hub.mode = .normal ∧ x.hall.dc.hub.nr = 0 then
      some ⟨⟨fun i => (x.hall.conn i).lose, fresh x.hall.dc absMax, x.hall.evs⟩, x.gen + 1, x.by_, x.to⟩
    else none

def Era.run {σ : Type} (exec : σ → Bytes → σ × Bytes) (absMax : Nat) (mem : Nat → Bool) (p : Nat) (a : Addr) (x : Era σ) : List EEv → Option (Era σ)
  | [] => some x
  | e :: es => match x.step exec absMax mem p a e with
    | some x => x.run exec absMax mem p a es
    | none => none

def Era.init {σ : Type} (t : Hub.Tgt σ) (absMax : Nat) : Era σ := ⟨Hall.init t absMax, 0, [], []⟩

/-- The events other than the replacement of device clients. -/
def plain (es : List EEv) : List HEv := es.filterMap fun e => match e with
  | .ev e => some e
  | .renew => none

end Verif.TraMgr
