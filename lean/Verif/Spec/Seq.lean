import Verif.Spec.Reply
import Verif.Model.Validate
/-!
# One operation at a time

What a program of client calls means on the memory of a target, without packets: each call performs its word
accesses immediately, in order, and returns the words read.
-/

set_option autoImplicit false

namespace Verif.Spec

/-- The slave side of a target: reads may have side effects (FIFOs, clear-on-read registers). -/
structure Target (σ : Type) where
  rd : σ → W → W × σ
  wr : σ → W → W → σ
  cfg : σ → W → W × σ

variable {σ : Type}

/-- One word access: words returned and new state. Read-modify-write returns the modified value in IPbus 1.3 and
the old one in IPbus 2.0. -/
def Acc.exec (v : Ver) (tg : Target σ) (m : σ) : Acc → List W × σ
  | .rd a => let r := tg.rd m a; ([r.1], r.2)
  | .wr a d => ([], tg.wr m a d)
  | .bits a x o =>
    let r := tg.rd m a
    let z := (r.1 &&& x) ||| o
    ([match v with | .v1 => z | .v2 => r.1], tg.wr r.2 a z)
  | .sum a x =>
    let r := tg.rd m a
    let z := r.1 + x
    ([match v with | .v1 => z | .v2 => r.1], tg.wr r.2 a z)
  | .cfg a => let r := tg.cfg m a; ([r.1], r.2)

/-- Word accesses one after the other. -/
def execAccs (v : Ver) (tg : Target σ) : List Acc → σ → List W × σ
  | [], m => ([], m)
  | a :: as, m =>
    let r := a.exec v tg m
    let q := execAccs v tg as r.2
    (r.1 ++ q.1, q.2)

/-- Position of the lowest set bit. -/
def lowBit (m : W) : Option Nat := (List.range 32).find? fun k => m.getLsbD k

/-- The word accesses of a call; `none`: the call is refused (a masked write whose value does not fit the mask,
a configuration-space read in IPbus 1.3). -/
def opAccs (v : Ver) : Op → Option (List Acc)
  | .write a d => some [.wr a d]
  | .writeMasked a d m =>
    match lowBit m with
    | none => none
    | some k =>
      if d.toNat * 2 ^ k < 2 ^ 32 ∧ ∀ i, i < 32 → d.getLsbD i = true → m.getLsbD (k + i) = true then
        some [.bits a (~~~m) (BitVec.ofNat 32 (d.toNat * 2 ^ k))]
      else none
  | .writeBlock a src inc => some (List.zipWith .wr (addrs inc a src.length) src)
  | .read a => some [.rd a]
  | .readMasked a _ => some [.rd a]
  | .readBlock a n inc => some ((addrs inc a n.toNat).map .rd)
  | .readConfig a _ => match v with
    | .v1 => none
    | .v2 => some [.cfg a]
  | .rmwBits a x o => some [.bits a x o]
  | .rmwSum a x => some [.sum a x]
  | .dispatch => some []

/-- What the user sees of the words read by a call: nothing for writes, the field selected by the mask for masked
reads. -/
def opShow : Op → List W → List W
  | .write .., _ => []
  | .writeMasked .., _ => []
  | .writeBlock .., _ => []
  | .readMasked _ m, ws => ws.map fun x => (x &&& m) >>> (lowBit m).getD 0
  | .readConfig _ m, ws => ws.map fun x => (x &&& m) >>> (lowBit m).getD 0
  | _, ws => ws

/-- A whole program: what the user sees of each call (`none`: refused), and the final state. -/
def seqRun (v : Ver) (tg : Target σ) : List Op → σ → List (Option (List W)) × σ
  | [], m => ([], m)
  | op :: ops, m =>
    match opAccs v op with
    | none => let q := seqRun v tg ops m; (none :: q.1, q.2)
    | some as =>
      let r := execAccs v tg as m
      let q := seqRun v tg ops r.2
      (some (opShow op r.1) :: q.1, q.2)

/-- Transactions one after the other: the words each returns. -/
def execTxns (v : Ver) (tg : Target σ) : List Txn → σ → List (List W) × σ
  | [], m => ([], m)
  | t :: ts, m =>
    let r := execAccs v tg t.accs m
    let q := execTxns v tg ts r.2
    (r.1 :: q.1, q.2)

/-- A reply to a list of transactions, with the words `vals` for each of them: a successful header and the words. -/
inductive ReplyBody (v : Ver) : List (Nat × Txn) → List (List W) → List W → Prop
  | nil : ReplyBody v [] [] []
  | cons {id : Nat} {t : Txn} {ts : List (Nat × Txn)} {hw : W} {ws : List W} {vs : List (List W)} {r : List W} :
      HeaderOK v id t.ty hw → ReplyBody v ts vs r → ReplyBody v ((id, t) :: ts) (ws :: vs) (hw :: ws ++ r)

/-- The words in front of the transaction replies: those of the ControlHub (byte count, address of the device, port
and error code 0), then in IPbus 2.0 the packet header of the request. -/
def ReplyPre (c : Cfg) (req : List W) (pre : List W) : Prop :=
  ∃ hub pkt, pre = hub ++ pkt ∧
    (match c.hub with
      | none => hub = []
      | some (ip, port) => ∃ x, hub = [x, ip, port.setWidth 32]) ∧
    (match c.ver with
      | .v1 => pkt = []
      | .v2 => pkt = (ipbusPart c.hub req).take 1)

/-- The rest of the world behaves as a target: it answers every well-formed request (with packet id 0 and at least one
transaction), having executed its transactions in order. `mem` is the state of the target's slaves. -/
def Conforms {ρ : Type} (c : Cfg) (tg : Target σ) (mem : ρ → σ) (resp : ρ → List W → Option (List W) × ρ) : Prop :=
  ∀ e req txns, parsePacket c.ver (ipbusPart c.hub req) = some (0, txns) → txns ≠ [] →
    ∃ pre body e', resp e req = (some (pre ++ body), e') ∧ ReplyPre c req pre ∧
      ReplyBody c.ver txns (execTxns c.ver tg (txns.map Prod.snd) (mem e)).1 body ∧
      mem e' = (execTxns c.ver tg (txns.map Prod.snd) (mem e)).2

end Verif.Spec
