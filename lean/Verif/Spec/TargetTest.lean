import Verif.Spec.Dummy
import Verif.Spec.Soak
/-!
# Targets that pass a test

What an IPbus 2.0 target has to do with the datagrams of a test, and what a target has done that has passed one. Independent of the model of the test.
-/

set_option autoImplicit false

namespace Verif.Spec

/-- Word count of a transaction. -/
def Txn.words : Txn → Nat
  | .bot => 0
  | .read _ _ n => n
  | .write _ _ ds => ds.length
  | .rmwBits .. => 1
  | .rmwSum .. => 1
  | .cfgRead _ n => n

/-- Header of a successful reply: version 2, transaction ID, word count, type, info code 0. -/
def replyHeader (id : Nat) (t : Txn) : W := BitVec.ofNat 32 (2 * 2 ^ 28 + id * 2 ^ 16 + t.words * 2 ^ 8 + (wireCode .v2 t.ty).getD 0 * 2 ^ 4)

/-- The reply to transactions that have returned certain words. -/
def replyTo (txns : List (Nat × Txn)) (vals : List (List W)) : List W :=
  (List.zipWith (fun (x : Nat × Txn) (vs : List W) => replyHeader x.1 x.2 :: vs) txns vals).flatten

/-- A request for the status. -/
def statusAsk : List Nat := [0x20, 0, 0, 0xf1] ++ List.replicate 60 0

/-- What begins a status reply: size of a buffer, number of buffers, next packet ID. -/
def statusHead (mtu buffers next : Nat) : List Nat :=
  [0x20, 0, 0, 0xf1] ++ Hub.be 4 mtu ++ Hub.be 4 buffers ++ [0x20, next / 256, next % 256, 0xf0]

/-- A request to send a reply again. -/
def resendAsk (pid : Nat) : List Nat := [0x20, pid / 256, pid % 256, 0xf2]

/-- The packet ID that is expected after a packet. -/
def idAfter (next pid : Nat) : Nat := if pid = 0 then next else nextId next

/-- A control packet and its reply when the memory is `m`. -/
def answer (ws : List W) (txns : List (Nat × Txn)) {σ : Type} (tg : Target σ) (m : σ) : List Nat :=
  octets true (ws.take 1 ++ replyTo txns (execTxns .v2 tg (txns.map Prod.snd) m).1)

/-- A target that does what it should with big-endian packets that, with their replies, have no more than `limit` bytes. `next`: the packet ID it expects; `mem`: state of
its slaves; `kept`: packet ID of the control packet executed last, and its reply. -/
structure GoodTarget {τ σ : Type} (resp : τ → List Nat → Option (List Nat) × τ) (tg : Target σ) (mtu buffers limit : Nat)
    (next : τ → Nat) (mem : τ → σ) (kept : τ → Nat × List Nat) : Prop where
  status : ∀ t, ∃ more t', resp t statusAsk = (some (statusHead mtu buffers (next t) ++ more), t') ∧ more.length = 48 ∧ next t' = next t ∧ mem t' = mem t
  execute : ∀ t ws pid txns, parsePacket .v2 ws = some (pid, txns) → txns ≠ [] → pid = 0 ∨ pid = next t → (octets true ws).length ≤ limit →
    (answer ws txns tg (mem t)).length ≤ limit → ∃ t', resp t (octets true ws) = (some (answer ws txns tg (mem t)), t') ∧ next t' = idAfter (next t) pid ∧
      mem t' = (execTxns .v2 tg (txns.map Prod.snd) (mem t)).2 ∧ kept t' = (pid, answer ws txns tg (mem t))
  again : ∀ t, ∃ t', resp t (resendAsk (kept t).1) = (some (kept t).2, t') ∧ next t' = next t ∧ mem t' = mem t

/-- Where the test reads and writes: address 2, and 255 addresses from 0x1000 on. -/
def Tested (a : W) : Prop := a = 2 ∨ InRegion 0x1000 255 a

/-- A transaction that accesses nothing else. -/
def Txn.tested (t : Txn) : Prop := ∀ x ∈ t.accs, match x with
  | .rd a => Tested a
  | .wr a _ => Tested a
  | .bits a _ _ => Tested a
  | .sum a _ => Tested a
  | .cfg _ => False

/-- `n` rounds of a test that has been passed, with all datagrams: in each round a status request; a control packet with the next packet ID or 0, which has transactions
for the tested addresses, and at most 1472 bytes; a request for its reply. The replies have been those of a memory: `m` is what it contained before the first round. -/
inductive Passes : Nat → Nat → (W → W) → List (List Nat × Option (List Nat)) → Prop
  | nil {next : Nat} {m : W → W} : Passes 0 next m []
  | cons {n next pid : Nat} {m : W → W} {more : List Nat} {ws : List W} {txns : List (Nat × Txn)} {log : List (List Nat × Option (List Nat))} :
      more.length = 48 → parsePacket .v2 ws = some (pid, txns) → txns ≠ [] → pid = 0 ∨ pid = next → (∀ x ∈ txns, x.2.tested) →
      (octets true ws).length ≤ 1472 → (answer ws txns ram m).length ≤ 1472 →
      Passes n (idAfter next pid) (execTxns .v2 ram (txns.map Prod.snd) m).2 log →
      Passes (n + 1) next m ((statusAsk, some (statusHead 2000 5 next ++ more)) :: (octets true ws, some (answer ws txns ram m)) ::
        (resendAsk pid, some (answer ws txns ram m)) :: log)

end Verif.Spec
