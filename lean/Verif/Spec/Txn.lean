import Verif.Spec.Header
/-!
# Independent description of what is on the wire

A parser for IPbus request packets and the word accesses a transaction stands for, written from the
protocol only (`Spec.field`, `Spec.wireCode`); it does not use the model's encoder, decoder or client.
-/

set_option autoImplicit false

namespace Verif.Spec

/-- A transaction request. `inc`: incrementing addresses. -/
inductive Txn
  | bot
  | read (inc : Bool) (addr : W) (n : Nat)
  | write (inc : Bool) (addr : W) (ds : List W)
  | rmwBits (addr andT orT : W)
  | rmwSum (addr x : W)
  | cfgRead (addr : W) (n : Nat)
deriving DecidableEq, Repr

/-- One access to one 32-bit word. -/
inductive Acc
  | rd (a : W)
  | wr (a d : W)
  | bits (a x o : W)
  | sum (a x : W)
  | cfg (a : W)
deriving DecidableEq, Repr

/-- `a, a+1, a+2, ...` or `a, a, a, ...`. -/
def addrs (inc : Bool) (a : W) (n : Nat) : List W :=
  (List.range n).map fun i => if inc then a + BitVec.ofNat 32 i else a

/-- The word accesses of a transaction, in order. -/
def Txn.accs : Txn → List Acc
  | .bot => []
  | .read inc a n => (addrs inc a n).map .rd
  | .write inc a ds => List.zipWith .wr (addrs inc a ds.length) ds
  | .rmwBits a x o => [.bits a x o]
  | .rmwSum a x => [.sum a x]
  | .cfgRead a n => (addrs true a n).map .cfg

/-- All transaction types. -/
def allTy : List Ty := [.bot, .read, .write, .rmwBits, .rmwSum, .rai, .niRead, .niWrite, .configRead]

/-- Type with a given code on the wire. -/
def tyOf (v : Ver) (code : Nat) : Option Ty := allTy.find? fun ty => wireCode v ty = some code

/-- Info code of a request: 0 (three bits) in IPbus 1.3, 0xF in IPbus 2.0. -/
def reqCode : Ver → Nat
  | .v1 => 0
  | .v2 => 15

/-- Body of a request of a given type with word count `n`: the transaction and the words after it. -/
def parseBody (n : Nat) (t : List W) : Ty → Option (Txn × List W)
  | .bot => some (.bot, t)
  | .read => match t with
    | a :: t => some (.read true a n, t)
    | _ => none
  | .niRead => match t with
    | a :: t => some (.read false a n, t)
    | _ => none
  | .configRead => match t with
    | a :: t => some (.cfgRead a n, t)
    | _ => none
  | .write => match t with
    | a :: t => if n ≤ t.length then some (.write true a (t.take n), t.drop n) else none
    | _ => none
  | .niWrite => match t with
    | a :: t => if n ≤ t.length then some (.write false a (t.take n), t.drop n) else none
    | _ => none
  | .rmwBits => match t with
    | a :: x :: o :: t => if n = 1 then some (.rmwBits a x o, t) else none
    | _ => none
  | .rmwSum => match t with
    | a :: x :: t => if n = 1 then some (.rmwSum a x, t) else none
    | _ => none
  | .rai => none

/-- One request from the front of a word list: transaction id, transaction, rest. -/
def parseTxn (v : Ver) : List W → Option (Nat × Txn × List W)
  | [] => none
  | h :: t =>
    if field h 28 4 = verNibble v ∧ field h 0 (tyLow v) = reqCode v then
      match tyOf v (field h (tyLow v) (8 - tyLow v)) with
      | none => none
      | some ty => (parseBody (field h 8 (wcBits v)) t ty).map fun p =>
          (field h (28 - idBits v) (idBits v), p.1, p.2)
    else none

/-- A whole word list as requests, up to its very end (`fuel` ≥ the number of words). -/
def parseTxns (v : Ver) : Nat → List W → Option (List (Nat × Txn))
  | _, [] => some []
  | 0, _ :: _ => none
  | fuel + 1, w :: ws =>
    match parseTxn v (w :: ws) with
    | none => none
    | some (id, txn, rest) => (parseTxns v fuel rest).map ((id, txn) :: ·)

/-- An IPbus packet: IPbus 1.3 has no packet header; an IPbus 2.0 control packet starts with
`0x2PPPPP` ... version 2, byte-order qualifier 0xF, packet type 0. Returns the packet id (0 for 1.3). -/
def parsePacket (v : Ver) (ws : List W) : Option (Nat × List (Nat × Txn)) :=
  match v, ws with
  | .v1, ws => (parseTxns .v1 ws.length ws).map fun l => (0, l)
  | .v2, h :: t =>
    if field h 28 4 = 2 ∧ field h 24 4 = 0 ∧ field h 4 4 = 15 ∧ field h 0 4 = 0 then
      (parseTxns .v2 t.length t).map fun l => (field h 8 16, l)
    else none
  | .v2, [] => none

end Verif.Spec
