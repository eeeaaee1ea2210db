import Verif.Model.Paged
/-!
# Programs over the PCIe and mmap clients

The transport that the packet builder (`Verif/Model/Client.lean`) sees when the client is one of those of `Verif/Model/Paged.lean`:
`implementDispatch`, `Flush` and `dispatchExceptionHandler` of `/repo/uhal/uhal/src/common/ProtocolPCIe.cpp` 385-422 and
`ProtocolMmap.cpp` 330-367. During each call there happens what the plan says: sections of the call itself, steps of the device
and steps of other clients. A call whose plan is too short does not return (`.loops`).
-/

set_option autoImplicit false

namespace Verif

/-- The client whose step it is. -/
def PAct.who : PAct → Option Nat
  | .dev => none
  | .call i _ | .callFlush i | .connect i | .poll i | .event i | .fetch i | .flock i | .start i | .write i | .unlock i | .finish i
  | .fail i | .handler i | .crash i | .halfStart i => some i

/-- The user thread is in `implementDispatch` or `Flush`. -/
def PPc.inside : PPc → Bool
  | .disp _ | .flush | .flushed => true
  | _ => false

section
variable {ρ : Type} (c : Cfg) (ps : Nat → PCfg) (resp : ρ → List W → Option (List W) × ρ) (i : Nat)

/-- A step during a call of client `i`: when the call has come to an end, client `i` does nothing more. -/
def PW.inner (w : PW ρ) (a : PAct) : PW ρ := if a.who = some i ∧ (w.cl i).pc.inside = false then w else w.act c ps resp a

/-- What was read in a call, from the states before and after. -/
def PCl.news (u0 u : PCl) : List (Buf × Nat × Nat × List W × VOut) := u.got.drop u0.got.length

/-- The exception of the validation, if the last page read in the call was refused: 643-658 / 545-560. -/
def PCl.refused (u0 u : PCl) : Option Exc :=
  match (u0.news u).getLast? with
  | some (_, _, _, _, .err e) => some e
  | _ => none

/-- The exception is one of an access to the device. -/
def PCl.broke (u0 u : PCl) : Bool := decide (u.pc = .thrown) && (u0.refused u).isNone

/-- Ghost: what happened to packets in a call, `bs` being those handed over in it. A failed access counts as the loss of the oldest packet. -/
def PCl.outs (u0 u : PCl) (bs : List Buf) : List (Buf × Option (List W)) :=
  (u0.news u).map (fun x => (x.1, some x.2.2.2.1)) ++
    if u0.broke u then ((u.queue.map Prod.fst ++ bs).take 1).map (fun b => (b, none)) else []

/-- Ghost: how many of them before and after the packet was queued. -/
def PCl.nums (u0 u : PCl) : Nat × Nat :=
  if u0.broke u then (if u.queue = [] then ((u0.news u).length, 1) else ((u0.news u).length + 1, 0)) else ((u0.news u).length, 0)

/-- State of the transport. -/
structure PagedT (ρ : Type) where
  w : PW ρ
  /-- for each call: the steps -/
  plan : List (List PAct)
  /-- ghost -/
  outcomes : List (Buf × Option (List W))
  /-- ghost -/
  counts : List (Nat × Nat)

/-- How a call ends. -/
def PagedT.result (t : PagedT ρ) (u0 u : PCl) : Out (PagedT ρ) Unit :=
  match u.pc with
  | .idle => .ok () t
  | .thrown => .exc ((u0.refused u).getD (.transport 0)) t
  | .dead => .ub
  | _ => .loops

/-- Client `i`. The exception handler is called whatever has thrown the exception. -/
def pagedT : Transport (PagedT ρ) where
  disp t b :=
    let w := (t.plan.headD []).foldl (PW.inner c ps resp i) (t.w.act c ps resp (.call i b))
    PagedT.result ⟨w, t.plan.tail, t.outcomes ++ (t.w.cl i).outs (w.cl i) [b], t.counts ++ [(t.w.cl i).nums (w.cl i)]⟩ (t.w.cl i) (w.cl i)
  flush t :=
    let w := (t.plan.headD []).foldl (PW.inner c ps resp i) (t.w.act c ps resp (.callFlush i))
    PagedT.result ⟨w, t.plan.tail, t.outcomes ++ (t.w.cl i).outs (w.cl i) [], t.counts⟩ (t.w.cl i) (w.cl i)
  handler t := { t with w := (t.w.set i { t.w.cl i with pc := .thrown }).act c ps resp (.handler i) }

/-- At the start. -/
def PagedT.init (pages size start : Nat) (count0 : W) (e : ρ) (plan : List (List PAct)) : PagedT ρ :=
  ⟨.init ps pages size start count0 e, plan, [], []⟩

end
end Verif
