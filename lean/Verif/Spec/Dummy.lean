import Verif.Spec.Seq
import Verif.Spec.Hub
/-!
# Packets for an IPbus 2.0 target

Independent of the model of the target.
-/

set_option autoImplicit false

namespace Verif.Spec

/-- Words on the wire in one of two byte orders. -/
def octets (big : Bool) (ws : List W) : List Nat := ws.flatMap fun w => if big then Hub.be 4 w.toNat else (Hub.be 4 w.toNat).reverse

/-- What a well-behaved host sends: control packets with at least one transaction (and configuration space reads within the ten words that there are), status
requests, and requests to send a reply again (packet ID not 0). Status and resend requests are always big-endian. -/
inductive FromHost (big : Bool) : List Nat → Prop
  | control (ws : List W) (pid : Nat) (txns : List (Nat × Txn)) : parsePacket .v2 ws = some (pid, txns) → txns ≠ [] →
      (∀ x ∈ txns, ∀ a n, x.2 = .cfgRead a n → a.toNat + n ≤ 10) → FromHost big (octets big ws)
  | status (rest : List Nat) : FromHost big (0x20 :: 0 :: 0 :: 0xf1 :: rest)
  | resend (b c : Nat) (rest : List Nat) : b < 256 → c < 256 → 0 < b * 256 + c → FromHost big (0x20 :: b :: c :: 0xf2 :: rest)

/-- State of an IPbus 2.0 target: ID of the next control packet, slaves, the last replies with the IDs of their packets (newest first). -/
structure TState where
  next : Nat
  mem : W → W
  kept : List (Nat × List Nat)

/-- IDs run from 1 to 65535. -/
def nextId (n : Nat) : Nat := if n = 65535 then 1 else n + 1

/-- What an IPbus 2.0 target with five buffers of 400000 bytes does with a datagram: a control packet with the next ID, or with ID 0, is executed, answered, and the
answer kept; other control packets are ignored; a status request is answered with the number of buffers and the next ID; a reply that is still kept is sent again. -/
inductive Response (big : Bool) (tg : Target (W → W)) : TState → List Nat → TState → Option (List Nat) → Prop
  | execute {s : TState} {ws body : List W} {pid : Nat} {txns : List (Nat × Txn)} : parsePacket .v2 ws = some (pid, txns) → txns ≠ [] → (pid = 0 ∨ pid = s.next) →
      ReplyBody .v2 txns (execTxns .v2 tg (txns.map Prod.snd) s.mem).1 body →
      Response big tg s (octets big ws)
        ⟨if pid = 0 then s.next else nextId pid, (execTxns .v2 tg (txns.map Prod.snd) s.mem).2, ((pid, octets big (ws.take 1 ++ body)) :: s.kept).take 5⟩
        (some (octets big (ws.take 1 ++ body)))
  | ignore {s : TState} {ws : List W} {pid : Nat} {txns : List (Nat × Txn)} : parsePacket .v2 ws = some (pid, txns) → pid ≠ 0 → pid ≠ s.next →
      Response big tg s (octets big ws) s none
  | status {s : TState} {rest more : List Nat} : more.length = 48 →
      Response big tg s (0x20 :: 0 :: 0 :: 0xf1 :: rest) s
        (some ([0x20, 0, 0, 0xf1] ++ Hub.be 4 400000 ++ Hub.be 4 5 ++ [0x20, s.next / 256, s.next % 256, 0xf0] ++ more))
  | again {s : TState} {b c : Nat} {rest : List Nat} :
      Response big tg s (0x20 :: b :: c :: 0xf2 :: rest) s ((s.kept.find? fun e => decide (e.1 = b * 256 + c)).map (·.2))

/-- One datagram after the other. -/
inductive Session (big : Bool) (tg : Target (W → W)) : TState → List (List Nat) → TState → List (Option (List Nat)) → Prop
  | nil {s : TState} : Session big tg s [] s []
  | cons {s s' s'' : TState} {p : List Nat} {ps : List (List Nat)} {a : Option (List Nat)} {as : List (Option (List Nat))} :
      Response big tg s p s' a → Session big tg s' ps s'' as → Session big tg s (p :: ps) s'' (a :: as)

/-! ### Without packet IDs -/

/-- Packets with ID 0, each executed when the one before it has been: their replies, and the memory at the end. -/
inductive Answered (tg : Target (W → W)) : (W → W) → List (List W) → List (List W) → (W → W) → Prop
  | nil {m : W → W} : Answered tg m [] [] m
  | snoc {m m' : W → W} {qs as : List (List W)} {q body : List W} {txns : List (Nat × Txn)} : Answered tg m qs as m' → parsePacket .v2 q = some (0, txns) → txns ≠ [] →
      ReplyBody .v2 txns (execTxns .v2 tg (txns.map Prod.snd) m').1 body →
      Answered tg m (qs ++ [q]) (as ++ [q.take 1 ++ body]) (execTxns .v2 tg (txns.map Prod.snd) m').2

/-- A control packet with ID 0 such that it and its reply have at most `n` words. -/
structure PageRequest (tg : Target (W → W)) (n : Nat) (q : List W) : Prop where
  parses : ∃ txns, parsePacket .v2 q = some (0, txns) ∧ txns ≠ []
  length : q.length ≤ n
  reply : ∀ txns m body, parsePacket .v2 q = some (0, txns) → ReplyBody .v2 txns (execTxns .v2 tg (txns.map Prod.snd) m).1 body → 1 + body.length ≤ n

/-- It reads no more than the ten words that there are in the configuration space. -/
def SafeReads (q : List W) : Prop := ∀ txns, parsePacket .v2 q = some (0, txns) → ∀ x ∈ txns, ∀ a n, x.2 = .cfgRead a n → a.toNat + n ≤ 10

end Verif.Spec
