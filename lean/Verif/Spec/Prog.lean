import Verif.Model.Client
import Verif.Spec.Txn
/-!
# What a program of client calls should put on the wire

Independent of the packet builder: only the calls (`Op`), the parser of `Spec.Txn` and word accesses.
-/

set_option autoImplicit false

namespace Verif.Spec

/-- Largest word count of one transaction. -/
def wcMax (v : Ver) : Nat := 2 ^ wcBits v - 1

/-- The transactions `txns` are a correct rendering of one accepted call. Block transfers may be split in
any way, as long as the word accesses are those of the whole block in order, no piece exceeds the word
count field and there are no useless empty pieces. -/
def Realises (v : Ver) : Op → List Txn → Prop
  | .write a d, txns => txns = [.write true a [d]]
  | .writeMasked a d m, txns => ∃ k, m.getLsbD k = true ∧ (∀ j, j < k → m.getLsbD j = false) ∧
      d.toNat * 2 ^ k < 2 ^ 32 ∧ (∀ i, d.getLsbD i = true → m.getLsbD (k + i) = true) ∧
      txns = [.rmwBits a (~~~m) (BitVec.ofNat 32 (d.toNat * 2 ^ k))]
  | .writeBlock a src inc, txns =>
      txns.flatMap Txn.accs = List.zipWith .wr (addrs inc a src.length) src ∧
      (∀ t ∈ txns, ∃ a' ds, t = .write inc a' ds ∧ ds.length ≤ wcMax v ∧ (src ≠ [] → ds ≠ [])) ∧
      (src = [] → txns = [.write inc a []])
  | .read a, txns => txns = [.read true a 1]
  | .readMasked a _, txns => txns = [.read true a 1]
  | .readBlock a n inc, txns =>
      txns.flatMap Txn.accs = (addrs inc a n.toNat).map .rd ∧
      (∀ t ∈ txns, ∃ a' k, t = .read inc a' k ∧ k ≤ wcMax v ∧ (n ≠ 0 → k ≠ 0)) ∧
      (n = 0 → txns = [.read inc a 0])
  | .readConfig a _, txns => v = .v2 ∧ txns = [.cfgRead a 1]
  | .rmwBits a x o, txns => txns = [.rmwBits a x o]
  | .rmwSum a x, txns => txns = [.rmwSum a x]
  | .dispatch, txns => txns = []

/-- The transactions `txns` are a beginning of a rendering of one call (a call that threw): nothing, or for
block transfers the first accesses of the block. -/
def RealisesPart : Op → List Txn → Prop
  | .writeBlock a src inc, txns =>
      txns.flatMap Txn.accs <+: List.zipWith .wr (addrs inc a src.length) src ∧
      ∀ t ∈ txns, ∃ a' ds, t = .write inc a' ds
  | .readBlock a n inc, txns =>
      txns.flatMap Txn.accs <+: (addrs inc a n.toNat).map .rd ∧
      ∀ t ∈ txns, ∃ a' k, t = .read inc a' k
  | _, txns => txns = []

/-- The IPbus part of a packet: after the two preamble words of the ControlHub, if there is one. -/
def ipbusPart {α : Type} (hub : Option α) (ws : List W) : List W := if hub.isSome then ws.drop 2 else ws

/-- Parse each of a list of packets. -/
def parsePackets {α : Type} (v : Ver) (hub : Option α) (pkts : List (List W)) : Option (List (List (Nat × Txn))) :=
  pkts.mapM fun p => (parsePacket v (ipbusPart hub p)).map Prod.snd

/-- The transactions that are not byte-order transactions. -/
def realTxns (l : List (List (Nat × Txn))) : List Txn :=
  l.flatten.filterMap fun p => if p.2 = .bot then none else some p.2

/-- A packet without the padding: byte-order transactions behind the first transaction. -/
def unpad : List (Nat × Txn) → List (Nat × Txn)
  | [] => []
  | x :: xs => x :: xs.filter fun p => p.2 ≠ .bot

/-- Number of data words in the reply of a transaction; `none` if there is no data slot. -/
def dataWords : Txn → Option Nat
  | .bot => none
  | .read _ _ n => some n
  | .write .. => none
  | .rmwBits .. => some 1
  | .rmwSum .. => some 1
  | .cfgRead _ n => some n

/-- Assign the reply slots of a packet to its transactions: one header slot of one word each, and one data
slot of exactly the right length for those that return data; no slot may remain. -/
def assign : List Txn → List Slot → Option (List (Txn × Loc × Option Slot))
  | [], [] => some []
  | [], _ :: _ => none
  | _ :: _, [] => none
  | t :: ts, h :: sl =>
    if h.len = 1 then
      match dataWords t with
      | none => (assign ts sl).map ((t, h.loc, none) :: ·)
      | some n =>
        match sl with
        | [] => none
        | d :: sl => if d.len = n then (assign ts sl).map ((t, h.loc, some d) :: ·) else none
    else none

end Verif.Spec

namespace Verif
open Spec

/-- Result of one call as the user sees it. -/
inductive Res
  | ok (h : Option Handle)
  | exc (e : Exc)
deriving DecidableEq

/-- A user program: calls one after the other, exceptions caught. `none`: undefined behaviour or
non-termination. -/
def runOps {τ : Type} (c : Cfg) (T : Transport τ) : List Op → St τ → Option (List Res × St τ)
  | [], s => some ([], s)
  | op :: ops, s =>
    match op.run c T s with
    | .ok h s' => (runOps c T ops s').map fun p => (.ok h :: p.1, p.2)
    | .exc e s' => (runOps c T ops s').map fun p => (.exc e :: p.1, p.2)
    | .ub => none
    | .loops => none

/-- The transactions `l` account for a list of calls with their results, one after the other: a rendering of
every call that returned, and at most a beginning of every call that threw. -/
inductive Accounts (v : Ver) : List Op → List Res → List Txn → Prop
  | nil : Accounts v [] [] []
  | ok {op : Op} {ops : List Op} {h : Option Handle} {rs : List Res} {p l : List Txn} :
      Realises v op p → Accounts v ops rs l → Accounts v (op :: ops) (.ok h :: rs) (p ++ l)
  | exc {op : Op} {ops : List Op} {e : Exc} {rs : List Res} {p l : List Txn} :
      RealisesPart op p → Accounts v ops rs l → Accounts v (op :: ops) (.exc e :: rs) (p ++ l)

/-- Every packet so far, dispatched or still being filled. -/
def wire {τ : Type} (s : St τ) : List (List W) := (s.hist ++ s.cur.toList).map Buf.send

/-- Arguments for which the calls are within their contract: blocks below 2^29 words (the byte count must
fit an `int32_t`), masks for which the shift is defined. -/
def Op.ok (c : Cfg) : Op → Prop
  | .writeBlock _ src _ => src.length < 2 ^ 29
  | .readBlock _ n _ => n.toNat < 2 ^ 29
  | .writeMasked _ _ m => m ≠ 0#32 ∧ (c.wrapNeg = true ∨ m ≠ 0x80000000#32)
  | _ => True

/-- The transport returns or throws, and does not throw the argument checker's exception. -/
structure Transport.Total {τ : Type} (T : Transport τ) : Prop where
  disp : ∀ t b, (∃ t', T.disp t b = .ok () t') ∨ ∃ e t', T.disp t b = .exc e t' ∧ e ≠ .bitsForbidden
  flush : ∀ t, (∃ t', T.flush t = .ok () t') ∨ ∃ e t', T.flush t = .exc e t' ∧ e ≠ .bitsForbidden

end Verif
