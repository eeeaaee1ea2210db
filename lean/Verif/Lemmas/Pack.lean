import Verif.Model.Client
import Verif.Spec.Txn
import Verif.Lemmas.Header
/-! Ghost description of packets: items (transactions with their bookkeeping), their encoding, and the fact
that the independent parser recovers them. -/

set_option autoImplicit false

namespace Verif
open Spec

/-- Type field of a transaction. -/
def txTy : Txn → Ty
  | .bot => .bot
  | .read true _ _ => .read
  | .read false _ _ => .niRead
  | .write true _ _ => .write
  | .write false _ _ => .niWrite
  | .rmwBits .. => .rmwBits
  | .rmwSum .. => .rmwSum
  | .cfgRead .. => .configRead

/-- Word count field of a request. -/
def txWC : Txn → Nat
  | .bot => 0
  | .read _ _ n => n
  | .write _ _ ds => ds.length
  | .rmwBits .. => 1
  | .rmwSum .. => 1
  | .cfgRead _ n => n

/-- Words after the header of a request. -/
def txArgs : Txn → List W
  | .bot => []
  | .read _ a _ => [a]
  | .write _ a ds => a :: ds
  | .rmwBits a x o => [a, x, o]
  | .rmwSum a x => [a, x]
  | .cfgRead a _ => [a]

/-- Data words in the reply, if the reply has a data slot. -/
def txData : Txn → Option Nat
  | .bot => none
  | .read _ _ n => some n
  | .write .. => none
  | .rmwBits .. => some 1
  | .rmwSum .. => some 1
  | .cfgRead _ n => some n

/-- Transactions that fit the header fields of a version. -/
def txLegal (v : Ver) (t : Txn) : Prop := supported v (txTy t) ∧ txWC t < 2 ^ wcBits v

/-- A queued transaction with its bookkeeping: value of the transaction counter, ValMem object, index of
the header inside the object, offset of the data slice, and whether the object was added to this packet. -/
structure Item where
  cnt : Nat
  txn : Txn
  obj : Nat
  hk : Nat
  off : Nat
  last : Bool
deriving DecidableEq

/-- Header word of an item. -/
def hdrWord (v : Ver) (it : Item) : W :=
  (calcHeader v (txTy it.txn) (BitVec.ofNat 32 (txWC it.txn)) (BitVec.ofNat 32 it.cnt) (reqInfo v)).getD 0

/-- Request words of an item. -/
def enc (v : Ver) (it : Item) : List W := hdrWord v it :: txArgs it.txn

/-- Reply slots of an item. -/
def slots (it : Item) : List Slot :=
  ⟨.hdr it.obj it.hk, 1⟩ :: match txData it.txn with
    | none => []
    | some n => [⟨.data it.obj it.off, n⟩]

/-- Number of reply words of an item. -/
def replyLen (it : Item) : Nat := 1 + (txData it.txn).getD 0

theorem calcHeader_isSome {v ty wc id info} (h : supported v ty) :
    ∃ w, calcHeader v ty wc id info = some w := by
  cases hc : calcHeader v ty wc id info with
  | some w => exact ⟨w, rfl⟩
  | none => exact absurd h ((calcHeader_none_iff v ty wc id info).1 hc)

theorem hdrWord_spec {v : Ver} {it : Item} (h : txLegal v it.txn) :
    calcHeader v (txTy it.txn) (BitVec.ofNat 32 (txWC it.txn)) (BitVec.ofNat 32 it.cnt) (reqInfo v)
      = some (hdrWord v it) := by
  obtain ⟨w, hw⟩ := calcHeader_isSome (wc := BitVec.ofNat 32 (txWC it.txn))
    (id := BitVec.ofNat 32 it.cnt) (info := reqInfo v) h.1
  unfold hdrWord; rw [hw]; rfl

theorem tyOf_wireCode {v ty x} (h : wireCode v ty = some x) : tyOf v x = some ty := by
  cases v <;> cases ty <;> simp [wireCode] at h <;> subst h <;> decide

theorem hdrWord_fields {v : Ver} {it : Item} (h : txLegal v it.txn) :
    field (hdrWord v it) 28 4 = verNibble v ∧
    field (hdrWord v it) 0 (tyLow v) = reqCode v ∧
    tyOf v (field (hdrWord v it) (tyLow v) (8 - tyLow v)) = some (txTy it.txn) ∧
    field (hdrWord v it) 8 (wcBits v) = txWC it.txn ∧
    field (hdrWord v it) (28 - idBits v) (idBits v) = it.cnt % 2 ^ idBits v := by
  obtain ⟨h1, h2, h3, h4, h5⟩ := calcHeader_fields (hdrWord_spec h)
  have hwc : txWC it.txn < 2 ^ 32 := by
    have := h.2; cases v <;> simp only [wcBits] at this <;> omega
  refine ⟨h1, ?_, tyOf_wireCode h2, ?_, ?_⟩
  · rw [h5]; cases v <;> rfl
  · rw [h3, BitVec.toNat_ofNat, Nat.mod_eq_of_lt hwc, Nat.mod_eq_of_lt h.2]
  · rw [h4, BitVec.toNat_ofNat]; cases v <;> simp only [idBits] <;> omega

/-- The independent parser recovers an encoded item from the front of any word list. -/
theorem parseTxn_enc {v : Ver} {it : Item} (h : txLegal v it.txn) (rest : List W) :
    parseTxn v (enc v it ++ rest) = some (it.cnt % 2 ^ idBits v, it.txn, rest) := by
  obtain ⟨h1, h2, h3, h4, h5⟩ := hdrWord_fields h
  show (if field (hdrWord v it) 28 4 = verNibble v ∧ field (hdrWord v it) 0 (tyLow v) = reqCode v then _ else _) = _
  rw [if_pos ⟨h1, h2⟩, h3, h4, h5]
  cases ht : it.txn with
  | bot => simp [txTy, txArgs, parseBody]
  | read inc a n => cases inc <;> simp [txTy, txArgs, txWC, parseBody]
  | write inc a ds => cases inc <;> simp [txTy, txArgs, txWC, parseBody]
  | rmwBits a x o => simp [txTy, txArgs, txWC, parseBody]
  | rmwSum a x => simp [txTy, txArgs, txWC, parseBody]
  | cfgRead a n => simp [txTy, txArgs, txWC, parseBody]

theorem parseTxns_enc {v : Ver} (items : List Item) (h : ∀ it ∈ items, txLegal v it.txn) (fuel : Nat)
    (hf : items.length ≤ fuel) :
    parseTxns v fuel (items.flatMap (enc v)) = some (items.map fun it => (it.cnt % 2 ^ idBits v, it.txn)) := by
  induction items generalizing fuel with
  | nil => cases fuel <;> rfl
  | cons it its ih =>
    cases fuel with
    | zero => simp at hf
    | succ fuel =>
      have hp := parseTxn_enc (h it (by simp)) (its.flatMap (enc v))
      rw [List.flatMap_cons]
      show parseTxns v (fuel + 1) (hdrWord v it :: (txArgs it.txn ++ _)) = _
      unfold parseTxns
      have hp' : parseTxn v (hdrWord v it :: (txArgs it.txn ++ its.flatMap (enc v)))
        = some (it.cnt % 2 ^ idBits v, it.txn, its.flatMap (enc v)) := hp
      rw [hp']
      simp only [ih (fun i hi => h i (by simp [hi])) fuel (by simpa using hf)]
      simp

theorem enc_length (v : Ver) (it : Item) : (enc v it).length = 1 + (txArgs it.txn).length := by
  simp [enc]; omega

theorem length_le_flatMap_enc (v : Ver) (items : List Item) : items.length ≤ (items.flatMap (enc v)).length := by
  induction items with
  | nil => simp
  | cons it its ih => simp only [List.flatMap_cons, List.length_append, enc_length, List.length_cons]; omega

theorem slots_len (it : Item) : ((slots it).map Slot.len).sum = replyLen it := by
  unfold slots replyLen; cases txData it.txn <;> simp

/-- A packet under construction: number of its preamble, and its items (in IPbus 1.3 the first one is the
byte-order transaction of the preamble). -/
structure Grp where
  k : Nat
  items : List Item

/-- Words sent before the items. -/
def preSend (c : Cfg) : List W :=
  (match c.hub with
    | none => []
    | some (ip, port) => [ip, port.setWidth 32]) ++
  (match c.ver with
    | .v1 => []
    | .v2 => [0x200000F0#32])

/-- Reply slots before those of the items. -/
def preSlots (c : Cfg) (k : Nat) : List Slot :=
  (match c.hub with
    | none => []
    | some _ => [⟨.hub k 0, 1⟩, ⟨.hub k 1, 1⟩, ⟨.hub k 2, 1⟩]) ++
  (match c.ver with
    | .v1 => []
    | .v2 => [⟨.pkt k, 1⟩])

/-- The buffer holding a packet. -/
def mkBuf (c : Cfg) (g : Grp) : Buf where
  send := preSend c ++ g.items.flatMap (enc c.ver)
  reply := preSlots c g.k ++ g.items.flatMap slots
  adds := g.items.filterMap fun it => if it.last then some it.obj else none

/-- The ControlHub word-count patch. -/
def patch (c : Cfg) (b : Buf) : Buf :=
  match c.hub with
  | none => b
  | some (_, port) =>
    { b with send := b.send.set 1 (port.setWidth 32 |||
        ((bswap16 (((BitVec.ofNat 32 (4 * b.send.length) - 8#32) >>> 2).setWidth 16)).setWidth 32 <<< 16)) }

/-- Padding items: byte-order transactions with id 0, each with its own ValHeader. -/
def padItems : Nat → Nat → List Item
  | _, 0 => []
  | o, n + 1 => ⟨0, .bot, o, 0, 0, true⟩ :: padItems (o + 1) n

/-- A finished packet with `np` padding items whose objects start at `po`. -/
structure Fin' where
  g : Grp
  po : Nat
  np : Nat

/-- All items of a finished packet including the padding. -/
def Fin'.all (f : Fin') : List Item := f.g.items ++ padItems f.po f.np

/-- The buffer handed to the transport. -/
def Fin'.buf (c : Cfg) (f : Fin') : Buf := patch c (mkBuf c ⟨f.g.k, f.all⟩)

/-- Number of padding words `IPbus<1,m>::predispatch` adds. -/
def padCount (c : Cfg) (sendLen : Nat) : Nat :=
  match c.ver with
  | .v1 => 7 + c.preambleSize - sendLen
  | .v2 => 0

end Verif
