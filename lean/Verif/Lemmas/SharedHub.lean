import Verif.Lemmas.Shared
import Verif.Lemmas.HubWire
import Verif.Props.C51
/-!
# The answer to a packet is decided by the words read

Two targets from which the transactions of a packet read the same words give the same answer to it.
-/

set_option autoImplicit false
set_option linter.unusedSimpArgs false

namespace Verif
open Spec

section
variable (v : Ver)

/-- The header of the reply to a transaction. -/
def txnHdr (h : Hdr) : W := match h.ty with
  | .bot => replyHdr v .bot 0 h.id
  | .niWrite => replyHdr v .niWrite (match v with | .v1 => 0 | .v2 => h.wc) h.id
  | .write => replyHdr v .write (match v with | .v1 => 0 | .v2 => h.wc) h.id
  | .rmwSum => replyHdr v .rmwSum 1 h.id
  | .rmwBits => replyHdr v .rmwBits 1 h.id
  | ty => replyHdr v ty h.wc h.id

theorem execTxn_hdr {σ : Type} (tg : Target σ) {h : Hdr} {t rest : List W} {txn : Txn} (hs : supported v h.ty) (hid : h.id.toNat < 2 ^ idBits v)
    (hp : parseBody h.wc.toNat t h.ty = some (txn, rest)) (m : σ) :
    execTxn v tg h t m = some (some (txnHdr v h :: (execAccs v tg txn.accs m).1, (execAccs v tg txn.accs m).2, rest)) := by
  obtain ⟨hw, e, _⟩ := execTxn_ok v tg hs hid hp m
  rw [e]
  congr 4
  obtain ⟨ty, wc, id, info⟩ := h
  simp only at hs hid hp e ⊢
  cases ty <;> simp only [execTxn] at e
  all_goals first
    | (injection e with e; injection e with e; obtain ⟨e, _⟩ := Prod.mk.inj e; injection e with e _; exact e.symm)
    | (split at e
       · first
         | (injection e with e; injection e with e; obtain ⟨e, _⟩ := Prod.mk.inj e; injection e with e _; exact e.symm)
         | (split at e
            · injection e with e; injection e with e; obtain ⟨e, _⟩ := Prod.mk.inj e; injection e with e _; exact e.symm
            · injection e with e; cases e)
       · injection e with e; cases e)
    | cases e

/-- Headers and words. -/
def bodyWords : List W → List (List W) → List W
  | h :: hs, vs :: vss => h :: vs ++ bodyWords hs vss
  | _, _ => []

theorem analyzeLoop_words (fuel fuel' : Nat) (ws : List W) (txns : List (Nat × Txn))
    (hp : parseTxns v fuel ws = some txns) (hne : ws ≠ []) (hf : ws.length ≤ fuel') :
    ∃ hs : List W, ∀ {σ : Type} (tg : Target σ) (m : σ) (r0 : List W),
      analyzeLoop v tg fuel' ws m r0 = .done (r0 ++ bodyWords hs (execTxns v tg (txns.map Prod.snd) m).1) (execTxns v tg (txns.map Prod.snd) m).2 := by
  induction fuel generalizing ws txns fuel' with
  | zero =>
    cases ws with
    | nil => exact absurd rfl hne
    | cons w ws => cases hp
  | succ fuel ih =>
    cases ws with
    | nil => exact absurd rfl hne
    | cons w ws =>
      cases fuel' with
      | zero => simp at hf
      | succ fuel' =>
        rw [parseTxns] at hp
        cases h1 : parseTxn v (w :: ws) with
        | none => rw [h1] at hp; cases hp
        | some x =>
          obtain ⟨id, txn, rest⟩ := x
          rw [h1] at hp
          simp only [Option.map_eq_some_iff] at hp
          obtain ⟨l, hl, rfl⟩ := hp
          rw [parseTxn] at h1
          split at h1
          · rename_i hhd
            split at h1
            · cases h1
            · rename_i ty hty
              simp only [Option.map_eq_some_iff] at h1
              obtain ⟨⟨tx, rs⟩, hb, hb2⟩ := h1
              simp only [Prod.mk.injEq] at hb2
              obtain ⟨rfl, rfl, rfl⟩ := hb2
              have hwc := (tyOf_iff _ _ _).1 hty
              have hx : extractHeader v w = some ⟨ty, BitVec.ofNat 32 (field w 8 (wcBits v)),
                  BitVec.ofNat 32 (field w (28 - idBits v) (idBits v)), reqInfo v⟩ := by
                rw [extractHeader_iff]
                refine ⟨hhd.1, hwc, ?_, ?_, (reqInfo_field v w hhd.2).symm⟩
                · simp only [BitVec.toNat_ofNat, field]; cases v <;> simp only [wcBits] <;> omega
                · simp only [BitVec.toNat_ofNat, field]; cases v <;> simp only [idBits] <;> omega
              have hwcn : (BitVec.ofNat 32 (field w 8 (wcBits v))).toNat = field w 8 (wcBits v) := by
                simp only [BitVec.toNat_ofNat, field]; cases v <;> simp only [wcBits] <;> omega
              have hidn : (BitVec.ofNat 32 (field w (28 - idBits v) (idBits v))).toNat = field w (28 - idBits v) (idBits v) := by
                simp only [BitVec.toNat_ofNat, field]; cases v <;> simp only [idBits] <;> omega
              have e1 := fun {σ : Type} (tg : Target σ) (m : σ) => execTxn_hdr v tg (h := ⟨ty, BitVec.ofNat 32 (field w 8 (wcBits v)),
                  BitVec.ofNat 32 (field w (28 - idBits v) (idBits v)), reqInfo v⟩) (supported_of_wire v hwc)
                (by rw [hidn]; exact Nat.mod_lt _ (Nat.pow_pos (by decide))) (by rw [hwcn]; exact hb) m
              have hrl : rs.length ≤ ws.length := by
                have hb' := hb
                cases ty <;> simp only [parseBody] at hb'
                case bot => cases hb'; exact Nat.le_refl _
                all_goals first
                  | cases hb'; done
                  | (split at hb' <;> cases hb'; simp; done)
                  | (split at hb'
                     · split at hb'
                       · cases hb'; simp <;> omega
                       · cases hb'
                     · cases hb')
              by_cases hrs : rs = []
              · subst hrs
                rw [show parseTxns v fuel [] = some [] by cases fuel <;> rfl] at hl
                cases hl
                refine ⟨[txnHdr v ⟨ty, BitVec.ofNat 32 (field w 8 (wcBits v)), BitVec.ofNat 32 (field w (28 - idBits v) (idBits v)), reqInfo v⟩], fun tg m r0 => ?_⟩
                rw [analyzeLoop, hx]
                simp only [ne_eq, not_true_eq_false, if_false]
                rw [e1 tg m]
                simp only [List.map_cons, List.map_nil, execTxns, bodyWords, if_true, List.append_nil]
              · obtain ⟨hs, h2⟩ := ih fuel' rs l hl hrs (by simp at hf; omega)
                refine ⟨txnHdr v ⟨ty, BitVec.ofNat 32 (field w 8 (wcBits v)), BitVec.ofNat 32 (field w (28 - idBits v) (idBits v)), reqInfo v⟩ :: hs, fun tg m r0 => ?_⟩
                rw [analyzeLoop, hx]
                simp only [ne_eq, not_true_eq_false, if_false]
                rw [e1 tg m]
                simp only [List.map_cons, execTxns, bodyWords, hrs, if_false]
                rw [h2 tg]
                simp
          · cases h1

end

section
variable {c : Cfg} {ip : W} {port : BitVec 16}

/-- The answer to a packet, given what its transactions read. -/
def Says (c : Cfg) (b : Buf) (ts : List Txn) (it : List W) (vals : List (List W)) : Prop :=
  ∀ {σ : Type} (tg : Target σ) (d : Dev σ), (execTxns c.ver tg ts d.mem).1 = vals →
    viaHub c tg d b.send = (some it, { d with mem := (execTxns c.ver tg ts d.mem).2 })

theorem viaHub_says (hh : c.hub = some (ip, port)) (hv : c.ver = .v2) {b : Buf} {txns : List (Nat × Txn)}
    (hp : parsePacket .v2 (b.send.drop 2) = some (0, txns)) (hne : txns ≠ []) {σ : Type} (tg : Target σ) (d : Dev σ) :
    ∃ it, (viaHub c tg d b.send).1 = some it ∧ Says c b (txns.map Prod.snd) it (execTxns c.ver tg (txns.map Prod.snd) d.mem).1 := by
  cases hs : b.send.drop 2 with
  | nil => rw [hs] at hp; cases hp
  | cons p t =>
    rw [hs] at hp
    simp only [parsePacket] at hp
    split at hp
    · rename_i hhd
      simp only [Option.map_eq_some_iff, Prod.mk.injEq] at hp
      obtain ⟨l, hl, h0, rfl⟩ := hp
      have hws : t ≠ [] := by rintro rfl; exact hne (parseTxns_nil hl)
      obtain ⟨hds, hb⟩ := analyzeLoop_words .v2 _ t.length t l hl hws (Nat.le_refl _)
      have key : ∀ {σ : Type} (tg : Target σ) (d : Dev σ), viaHub c tg d b.send =
          (some (htonl (BitVec.ofNat 32 (4 * ([p] ++ bodyWords hds (execTxns c.ver tg (l.map Prod.snd) d.mem).1).length + 8)) :: ip ::
            port.setWidth 32 :: ([p] ++ bodyWords hds (execTxns c.ver tg (l.map Prod.snd) d.mem).1)),
            { d with mem := (execTxns c.ver tg (l.map Prod.snd) d.mem).2 }) := by
        intro σ tg d
        simp only [viaHub, hh, hv, hs, dummyReply]
        rw [if_neg (by rw [pkt_type p hhd.2.2.2]; simp), pkt_cnt p h0]
        simp only [ne_eq, not_true_eq_false, false_and, if_false, hb]
        rfl
      refine ⟨_, by rw [key], ?_⟩
      intro σ' tg' d' he
      rw [key, he]
    · cases hp

end
end Verif
