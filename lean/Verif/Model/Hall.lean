import Verif.Model.TraMgr
/-!
# Several connections to one target

The ControlHub has a transaction manager for each connection (ch_tcp_listener.erl:120-150, /repo/controlhub/src/ch_transaction_manager.erl) and one device client for each target
(/repo/controlhub/src/ch_device_client_registry.erl). Here: any number of connections, all of them to one target. Each of them is as in `Verif.TraMgr.World`; the device client is shared.
-/

set_option autoImplicit false

namespace Verif.TraMgr
open Verif.Hub (Bytes)

/-- One connection: its transaction manager, and how far its mailbox and its part of that of the device client have been read (as in `World`). -/
structure Conn where
  tm : TM := TM.init
  taken : Nat := 0
  got : Nat := 0

/-- All connections, the device client and the network. `evs`: what has happened at the device client so far (ghost). -/
structure Hall (σ : Type) where
  conn : Nat → Conn
  dc : Hub.Sys σ
  evs : List Hub.Ev

/-- What may happen; `i` is the number of the connection. -/
inductive HEv
  | chunk (i : Nat) (bin : Bytes)
  | request (i : Nat)
  /-- the device client takes a packet from a connection that is not modelled, or directly -/
  | other (pkt : Bytes) (pid : Nat)
  | toTarget (i : Nat) (junk : Bytes)
  | toHub (i : Nat)
  | timeout
  | response (i : Nat)
deriving DecidableEq, Repr

/-- One event at the device client. -/
def Hall.dev {σ : Type} (exec : σ → Bytes → σ × Bytes) (h : Hall σ) (e : Hub.Ev) : Option (Hall σ) :=
  match h.dc.step exec e with
  | some dc => some { h with dc := dc, evs := h.evs ++ [e] }
  | none => none

/-- A new state of one connection. -/
def Hall.set {σ : Type} (h : Hall σ) (i : Nat) (c : Conn) : Hall σ := { h with conn := fun j => if j = i then c else h.conn j }

/-- As `World.step`, for every connection `i` with `mem i`; `p` is the device client of the target `a`. -/
def Hall.step {σ : Type} (exec : σ → Bytes → σ × Bytes) (mem : Nat → Bool) (p : Nat) (a : Addr) (h : Hall σ) : HEv → Option (Hall σ)
  | .chunk i bin => if mem i then some (h.set i { h.conn i with tm := (h.conn i).tm.step (.chunk bin (.pid p)) }) else none
  | .request i =>
    if mem i then
      match (h.conn i).tm.casts[(h.conn i).taken]? with
      | some c => match h.dev exec (.request c.2 i) with
        | some h => some (h.set i { h.conn i with taken := (h.conn i).taken + 1 })
        | none => none
      | none => none
    else none
  | .other pkt pid => if mem pid then none else h.dev exec (.request pkt pid)
  | .toTarget i junk => h.dev exec (.toTarget i junk)
  | .toHub i => h.dev exec (.toHub i)
  | .timeout => h.dev exec .timeout
  | .response i =>
    if mem i then
      match (h.dc.hub.out.filter (fun m => m.pid = i))[(h.conn i).got]? with
      | some m => some (h.set i { h.conn i with
          tm := (h.conn i).tm.step (if m.code = 5 then .stray else .response ⟨a, m.code, m.pkt⟩), got := (h.conn i).got + 1 })
      | none => none
    else none

def Hall.run {σ : Type} (exec : σ → Bytes → σ × Bytes) (mem : Nat → Bool) (p : Nat) (a : Addr) (h : Hall σ) : List HEv → Option (Hall σ)
  | [] => some h
  | e :: es => match h.step exec mem p a e with
    | some h => h.run exec mem p a es
    | none => none

/-- New connections. -/
def Hall.init {σ : Type} (t : Hub.Tgt σ) (absMax : Nat) : Hall σ := ⟨fun _ => {}, Hub.start t absMax, []⟩

/-- The messages that came over a connection. -/
def binsOf (i : Nat) (es : List HEv) : List Bytes := es.filterMap fun e => match e with
  | .chunk j bin => if j = i then some bin else none
  | _ => none

end Verif.TraMgr
