import Verif.Model.HubFirst
import Verif.Model.HubWire
/-!
# A connection to an IPbus 1.3 target through the ControlHub

One connection of a uHAL client (`Verif/Model/TraMgr.lean`), the device client of its target from its start (`Verif/Model/HubFirst.lean`) and
the network. In contrast to `TraMgr.World`, the mailbox of the device client, its first exchange with the target and its end are part of the model, and so
is the loop for IPbus 1.3 targets.
-/

set_option autoImplicit false

namespace Verif.Hub13
open Verif.Hub (Bytes)
open Verif.TraMgr (TM Addr)

/-- `given` of the packets cast are in the mailbox of the device client, or have been; `got` of the messages from there have been taken from
the mailbox of the transaction manager. `evs`: what has happened at the device client so far (ghost). -/
structure World (τ : Type) where
  tm : TM
  net : Hub.World τ
  given : Nat
  got : Nat
  evs : List Hub.WEv

inductive WEv
  /-- a message from the client; the device client is registered -/
  | chunk (bin : Bytes)
  /-- the next packet of this connection arrives at the device client -/
  | cast
  /-- a packet of another connection arrives there -/
  | other (pkt : Bytes) (pid : Nat)
  /-- the device client takes a packet from its mailbox, or something happens in the network -/
  | take
  | toTarget (i : Nat) (junk : Bytes)
  | toHub (i : Nat)
  | timeout
  /-- the transaction manager takes the next message from the device client -/
  | response
deriving DecidableEq, Repr

section
variable {τ : Type} (recv : τ → Bytes → Bytes → τ × List Bytes) (absMax me p : Nat) (a : Addr)

/-- One event at the device client. -/
def World.dev (w : World τ) (e : Hub.WEv) : Option (World τ) :=
  match w.net.step recv absMax e with
  | some net => some { w with net := net, evs := w.evs ++ [e] }
  | none => none

/-- The messages to a connection, in the order in which they were sent. -/
def mine (me : Nat) (d : Hub.DC) : List Hub.Msg := d.msgs.filter fun m => decide (m.pid = me)

/-- The connection `me` to the target `a`, whose device client is the process `p` (ch_transaction_manager.erl:163-272, ch_device_client.erl:
212-277). As in `TraMgr.World.step`, messages between two processes arrive in the order in which they were sent, and with error code 5 the
device client sends the IP address in a form that the transaction manager does not recognise (ch_device_client.erl:763). -/
def World.step (w : World τ) : WEv → Option (World τ)
  | .chunk bin => some { w with tm := w.tm.step (.chunk bin (.pid p)) }
  | .cast => match w.tm.casts[w.given]? with
    | some c => match w.dev recv absMax (.cast c.2 me) with
      | some w => some { w with given := w.given + 1 }
      | none => none
    | none => none
  | .other pkt pid => if pid = me then none else w.dev recv absMax (.cast pkt pid)
  | .take => w.dev recv absMax .take
  | .toTarget i junk => w.dev recv absMax (.toTarget i junk)
  | .toHub i => w.dev recv absMax (.toHub i)
  | .timeout => w.dev recv absMax .timeout
  | .response => match (mine me w.net.dc)[w.got]? with
    | some m => some { w with tm := w.tm.step (if m.code = 5 then .stray else .response ⟨a, m.code, m.pkt⟩), got := w.got + 1 }
    | none => none

/-- A sequence of events. -/
def World.run (w : World τ) : List WEv → Option (World τ)
  | [] => some w
  | e :: es => match w.step recv absMax me p a e with
    | some w => w.run es
    | none => none

end

/-- A new connection, and a device client that has just been started. -/
def World.init {τ : Type} (t : τ) : World τ := ⟨TM.init, Hub.World.init t, 0, 0, []⟩

/-- The messages from the client. -/
def bins : List WEv → List Bytes
  | [] => []
  | .chunk bin :: es => bin :: bins es
  | _ :: es => bins es

/-- The target of `Verif/Model/Target.lean` with IPbus 1.3, for a whole packet as bytes: the loop of `analyze`
(/repo/uhal/uhal/src/common/IPbusInspector.cpp:93-178). What it does with a packet that it refuses is not modelled: nothing happens and the
reply is empty. -/
def execBytes13 {σ : Type} (tg : Spec.Target σ) (m : σ) (pkt : Bytes) : σ × Bytes :=
  match analyzeLoop .v1 tg (ofLE pkt).length (ofLE pkt) m [] with
  | .done r m' => (m', wordBytes r)
  | _ => (m, [])

end Verif.Hub13
