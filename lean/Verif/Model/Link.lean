import Verif.Model.Validate
/-!
# A generic asynchronous transport

What UDP, TCP, PCIe and mmap clients have in common, seen from the packet builder: dispatched buffers wait in
a queue; some time later, in order, the reply to the oldest one arrives, is scattered over its slots and
validated (`ClientInterface::validate`), or the transport fails. A failure is an asynchronous exception: it is
thrown by the `implementDispatch` or `Flush` call that notices it, and `dispatchExceptionHandler` then empties
the queue (src/common/ProtocolUDP.cpp:121-146, 295-406, 444-493; ProtocolTCP.cpp:121-143, 351-535, 569-629;
ProtocolPCIe.cpp:385-422; ProtocolMmap.cpp:330-368).

* `resp` is the rest of the world: given its state and the words sent it answers with a reply (any words) or
  with nothing (timeout, I/O error). It is a parameter, so theorems hold for every behaviour.
* `sched` fixes, for each `implementDispatch` call, how many replies are processed before and after the buffer
  is queued; it stands for the interleaving of the threads.
* The detailed state machines of the four transports are modelled separately.
-/

set_option autoImplicit false

namespace Verif

/-- A processed reply (ghost record): the buffer, the words received, the result of validation. -/
structure Rx where
  buf : Buf
  reply : List W
  out : VOut

/-- State of the transport. -/
structure Link (ρ : Type) where
  heap : Heap
  pending : List Buf
  env : ρ
  sched : List (Nat × Nat)
  /-- ghost, never read -/
  log : List Rx

/-- Fresh transport. -/
def Link.init {ρ} (e : ρ) (sched : List (Nat × Nat)) : Link ρ := ⟨.fresh, [], e, sched, []⟩

section
variable {ρ : Type} (c : Cfg) (resp : ρ → List W → Option (List W) × ρ)

/-- Process the replies to the first `n` queued buffers. -/
def process : Nat → Link ρ → Out (Link ρ) Unit
  | 0, l => .ok () l
  | n + 1, l =>
    match l.pending with
    | [] => .ok () l
    | b :: bs =>
      match resp l.env b.send with
      | (none, r) => .exc (.transport 0) { l with pending := bs, env := r }
      | (some ws, r) =>
        match receiveReply c l.heap b ws with
        | (.ok, h) => process n { l with heap := h, pending := bs, env := r, log := l.log ++ [⟨b, ws, .ok⟩] }
        | (.err e, h) => .exc e { l with heap := h, pending := bs, env := r, log := l.log ++ [⟨b, ws, .err e⟩] }
        | (.ub, _) => .ub

/-- The transport. -/
def linkT : Transport (Link ρ) where
  disp l b :=
    match process c resp (l.sched.headD (0, 0)).1 { l with sched := l.sched.tail } with
    | .ok () l1 => process c resp (l.sched.headD (0, 0)).2 { l1 with pending := l1.pending ++ [b] }
    | r => r
  flush l := process c resp l.pending.length l
  handler l := { l with pending := [] }

end
end Verif
