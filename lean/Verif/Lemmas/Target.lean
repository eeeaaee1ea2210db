import Verif.Model.Target
import Verif.Lemmas.Run
import Verif.Lemmas.Validate
/-! The test target executes packets as the specification says. -/

set_option autoImplicit false
set_option linter.unusedSimpArgs false

namespace Verif
open Spec

section
variable {σ : Type} (v : Ver) (tg : Target σ)

theorem addrs_succ (inc : Bool) (a : W) (n : Nat) : addrs inc a (n + 1) = a :: addrs inc (if inc then a + 1 else a) n := by
  rw [Nat.add_comm, addrs_add]
  cases inc <;> simp [addrs, List.range_succ]

theorem rdLoop_exec (inc : Bool) (n : Nat) (a : W) (m : σ) :
    rdLoop tg inc n a m = execAccs v tg ((addrs inc a n).map .rd) m := by
  induction n generalizing a m with
  | zero => rfl
  | succ n ih => rw [addrs_succ]; simp [rdLoop, execAccs, Acc.exec, ih]

theorem cfgLoop_exec (n : Nat) (a : W) (m : σ) :
    cfgLoop tg n a m = execAccs v tg ((addrs true a n).map .cfg) m := by
  induction n generalizing a m with
  | zero => rfl
  | succ n ih => rw [addrs_succ]; simp [cfgLoop, execAccs, Acc.exec, ih]

theorem wrLoop_exec (inc : Bool) (ds : List W) (a : W) (m : σ) :
    ([], wrLoop tg inc ds a m) = execAccs v tg (List.zipWith .wr (addrs inc a ds.length) ds) m := by
  induction ds generalizing a m with
  | nil => rfl
  | cons d ds ih => rw [List.length_cons, addrs_succ]; simp [wrLoop, execAccs, Acc.exec, ← ih]

theorem replyHdr_ok {ty : Ty} (hs : supported v ty) (wc id : W) (hid : id.toNat < 2 ^ idBits v) :
    HeaderOK v id.toNat ty (replyHdr v ty wc id) := by
  have hex : ∃ h, expectedHeader v ty wc id 0 = some h ∧
      ∃ info : BitVec 8, calcHeader v ty wc id info = some h ∧ info.toNat % 2 ^ infoBits v = 0 := by
    cases v with
    | v1 =>
      cases hc : calcHeader .v1 ty wc id 4#8 with
      | none => exact absurd hs ((calcHeader_none_iff _ _ _ _ _).1 hc)
      | some h => exact ⟨h, hc, _, hc, rfl⟩
    | v2 =>
      cases hc : calcHeader .v2 ty wc id 0 with
      | none => exact absurd hs ((calcHeader_none_iff _ _ _ _ _).1 hc)
      | some h => exact ⟨h, hc, _, hc, rfl⟩
  obtain ⟨h, h1, info, h2, h3⟩ := hex
  unfold replyHdr
  rw [h1, Option.getD_some]
  obtain ⟨f1, f2, f3, f4, f5⟩ := calcHeader_fields h2
  refine ⟨f1, (tyOf_iff _ _ _).2 f2, ?_, ?_⟩
  · rw [f4, Nat.mod_eq_of_lt hid]
  · simp only [field] at f5 ⊢
    cases v <;> simp only [infoBits, tyLow] at * <;> omega

theorem supported_of_wire {ty : Ty} {x : Nat} (h : wireCode v ty = some x) : supported v ty := by
  cases v <;> cases ty <;> simp [wireCode, supported] at h ⊢

/-- One transaction. -/
theorem execTxn_ok {h : Hdr} {t rest : List W} {txn : Txn} (hs : supported v h.ty) (hid : h.id.toNat < 2 ^ idBits v)
    (hp : parseBody h.wc.toNat t h.ty = some (txn, rest)) (m : σ) :
    ∃ hw, execTxn v tg h t m = some (some (hw :: (execAccs v tg txn.accs m).1, (execAccs v tg txn.accs m).2, rest)) ∧
      HeaderOK v h.id.toNat txn.ty hw := by
  obtain ⟨ty, wc, id, info⟩ := h
  simp only at hs hid hp ⊢
  cases ty <;> simp only [parseBody] at hp
  case bot => cases hp; exact ⟨_, rfl, replyHdr_ok v hs _ _ hid⟩
  case read =>
    split at hp <;> cases hp
    refine ⟨replyHdr v .read wc id, ?_, replyHdr_ok v hs _ _ hid⟩
    simp only [execTxn, rdLoop_exec v, Txn.accs]
  case niRead =>
    split at hp <;> cases hp
    refine ⟨replyHdr v .niRead wc id, ?_, replyHdr_ok v hs _ _ hid⟩
    simp only [execTxn, rdLoop_exec v, Txn.accs]
  case configRead =>
    split at hp <;> cases hp
    refine ⟨replyHdr v .configRead wc id, ?_, replyHdr_ok v hs _ _ hid⟩
    simp only [execTxn, cfgLoop_exec v, Txn.accs]
  case write =>
    split at hp
    · split at hp
      · rename_i a t hle
        cases hp
        simp only [execTxn, Txn.accs, ← wrLoop_exec v, hle, if_true]
        exact ⟨_, rfl, replyHdr_ok v hs _ _ hid⟩
      · cases hp
    · cases hp
  case niWrite =>
    split at hp
    · split at hp
      · rename_i a t hle
        cases hp
        simp only [execTxn, Txn.accs, ← wrLoop_exec v, hle, if_true]
        exact ⟨_, rfl, replyHdr_ok v hs _ _ hid⟩
      · cases hp
    · cases hp
  case rmwBits =>
    split at hp
    · split at hp
      · cases hp
        exact ⟨replyHdr v .rmwBits 1 id, by cases v <;> rfl, replyHdr_ok v hs _ _ hid⟩
      · cases hp
    · cases hp
  case rmwSum =>
    split at hp
    · split at hp
      · cases hp
        exact ⟨replyHdr v .rmwSum 1 id, by cases v <;> rfl, replyHdr_ok v hs _ _ hid⟩
      · cases hp
    · cases hp
  case rai => cases hp

theorem reqInfo_field (w : W) (h : field w 0 (tyLow v) = reqCode v) : field w 0 (infoBits v) = (reqInfo v).toNat := by
  simp only [field] at *
  cases v <;> simp only [tyLow, reqCode, infoBits, reqInfo] at *
  · have : (0x0 : BitVec 8).toNat = 0 := rfl
    rw [this]; omega
  · exact h

theorem analyzeLoop_ok (fuel fuel' : Nat) (ws : List W) (txns : List (Nat × Txn)) (m : σ) (r0 : List W)
    (hp : parseTxns v fuel ws = some txns) (hne : ws ≠ []) (hf : ws.length ≤ fuel') :
    ∃ body, analyzeLoop v tg fuel' ws m r0 = .done (r0 ++ body) (execTxns v tg (txns.map Prod.snd) m).2 ∧
      ReplyBody v txns (execTxns v tg (txns.map Prod.snd) m).1 body := by
  induction fuel generalizing ws txns m r0 fuel' with
  | zero =>
    cases ws with
    | nil => exact absurd rfl hne
    | cons w ws => cases hp
  | succ fuel ih =>
    cases ws with
    | nil => exact absurd rfl hne
    | cons w ws =>
      cases fuel' with
      | zero => simp at hf
      | succ fuel' =>
        rw [parseTxns] at hp
        cases h1 : parseTxn v (w :: ws) with
        | none => rw [h1] at hp; cases hp
        | some x =>
          obtain ⟨id, txn, rest⟩ := x
          rw [h1] at hp
          simp only [Option.map_eq_some_iff] at hp
          obtain ⟨l, hl, rfl⟩ := hp
          rw [parseTxn] at h1
          split at h1
          · rename_i hhd
            split at h1
            · cases h1
            · rename_i ty hty
              simp only [Option.map_eq_some_iff] at h1
              obtain ⟨⟨tx, rs⟩, hb, hb2⟩ := h1
              simp only [Prod.mk.injEq] at hb2
              obtain ⟨rfl, rfl, rfl⟩ := hb2
              have hwc := (tyOf_iff _ _ _).1 hty
              have hx : extractHeader v w = some ⟨ty, BitVec.ofNat 32 (field w 8 (wcBits v)),
                  BitVec.ofNat 32 (field w (28 - idBits v) (idBits v)), reqInfo v⟩ := by
                rw [extractHeader_iff]
                refine ⟨hhd.1, hwc, ?_, ?_, (reqInfo_field v w hhd.2).symm⟩
                · simp only [BitVec.toNat_ofNat, field]; cases v <;> simp only [wcBits] <;> omega
                · simp only [BitVec.toNat_ofNat, field]; cases v <;> simp only [idBits] <;> omega
              have hwcn : (BitVec.ofNat 32 (field w 8 (wcBits v))).toNat = field w 8 (wcBits v) := by
                simp only [BitVec.toNat_ofNat, field]; cases v <;> simp only [wcBits] <;> omega
              have hidn : (BitVec.ofNat 32 (field w (28 - idBits v) (idBits v))).toNat = field w (28 - idBits v) (idBits v) := by
                simp only [BitVec.toNat_ofNat, field]; cases v <;> simp only [idBits] <;> omega
              obtain ⟨hw, e1, e2⟩ := execTxn_ok v tg (h := ⟨ty, BitVec.ofNat 32 (field w 8 (wcBits v)),
                  BitVec.ofNat 32 (field w (28 - idBits v) (idBits v)), reqInfo v⟩) (supported_of_wire v hwc)
                (by rw [hidn]; exact Nat.mod_lt _ (Nat.pow_pos (by decide))) (by rw [hwcn]; exact hb) m
              rw [hidn] at e2
              rw [analyzeLoop, hx]
              simp only [ne_eq, not_true_eq_false, if_false]
              rw [e1]
              simp only [List.map_cons, execTxns]
              have hrl : rs.length ≤ ws.length := by
                have hb' := hb
                cases ty <;> simp only [parseBody] at hb'
                case bot => cases hb'; exact Nat.le_refl _
                all_goals first
                  | cases hb'; done
                  | (split at hb' <;> cases hb'; simp; done)
                  | (split at hb'
                     · split at hb'
                       · cases hb'; simp <;> omega
                       · cases hb'
                     · cases hb')
              split
              · rename_i hrs
                subst hrs
                rw [show parseTxns v fuel [] = some [] by cases fuel <;> rfl] at hl
                cases hl
                refine ⟨hw :: (execAccs v tg tx.accs m).1, by simp [execTxns], ?_⟩
                have := ReplyBody.cons (ws := (execAccs v tg tx.accs m).1) e2 (ReplyBody.nil (v := v))
                simpa [execTxns] using this
              · rename_i hrs
                obtain ⟨body, b1, b2⟩ := ih fuel' rs l (execAccs v tg tx.accs m).2
                  (r0 ++ hw :: (execAccs v tg tx.accs m).1) hl hrs (by simp at hf; omega)
                refine ⟨hw :: (execAccs v tg tx.accs m).1 ++ body, ?_, .cons e2 b2⟩
                rw [b1]; simp
          · cases h1

theorem parseTxns_nil {v : Ver} {fuel : Nat} {l : List (Nat × Txn)} (h : parseTxns v fuel [] = some l) : l = [] := by
  cases fuel <;> cases h <;> rfl

theorem pkt_cnt (p : W) (h : field p 8 16 = 0) : (p >>> 8) &&& 0xFFFF#32 = 0#32 := by
  apply BitVec.eq_of_toNat_eq
  have := toNat_field p 8 16 (by decide)
  simp only [field] at h
  rw [h] at this
  exact this

theorem pkt_type (p : W) (h : field p 0 4 = 0) : p &&& 0xF#32 = 0#32 := by
  apply BitVec.eq_of_toNat_eq
  have := toNat_and_mask p 4 (by decide)
  simp only [field] at h
  have h' : p.toNat % 2 ^ 4 = 0 := by simpa using h
  rw [h'] at this
  exact this

/-- The packet header of a request. -/
def pktEcho (v : Ver) (ws : List W) : List W := match v with
  | .v1 => []
  | .v2 => ws.take 1

/-- The target on a well-formed packet with packet id 0. -/
theorem dummyReply_ok (d : Dev σ) (ws : List W) (txns : List (Nat × Txn)) (hp : parsePacket v ws = some (0, txns)) (hne : txns ≠ []) :
    ∃ body m, dummyReply v tg d ws = (some (pktEcho v ws ++ body), { d with mem := m }) ∧
      m = (execTxns v tg (txns.map Prod.snd) d.mem).2 ∧ ReplyBody v txns (execTxns v tg (txns.map Prod.snd) d.mem).1 body := by
  cases v with
  | v1 =>
    simp only [parsePacket, Option.map_eq_some_iff, Prod.mk.injEq, true_and] at hp
    obtain ⟨l, hl, rfl⟩ := hp
    have hws : ws ≠ [] := by rintro rfl; exact hne (parseTxns_nil hl)
    obtain ⟨body, b1, b2⟩ := analyzeLoop_ok .v1 tg _ ws.length ws l d.mem [] hl hws (Nat.le_refl _)
    refine ⟨body, _, ?_, rfl, b2⟩
    simp only [dummyReply, b1]
    rfl
  | v2 =>
    cases ws with
    | nil => cases hp
    | cons p t =>
      simp only [parsePacket] at hp
      split at hp
      · rename_i hh
        simp only [Option.map_eq_some_iff, Prod.mk.injEq] at hp
        obtain ⟨l, hl, h0, rfl⟩ := hp
        have hws : t ≠ [] := by rintro rfl; exact hne (parseTxns_nil hl)
        obtain ⟨body, b1, b2⟩ := analyzeLoop_ok .v2 tg _ t.length t l d.mem [p] hl hws (Nat.le_refl _)
        refine ⟨body, _, ?_, rfl, b2⟩
        simp only [dummyReply]
        rw [if_neg (by rw [pkt_type p hh.2.2.2]; simp), pkt_cnt p h0]
        simp only [ne_eq, not_true_eq_false, false_and, if_false, b1]
        rfl
      · cases hp

theorem dummy_conforms (c : Cfg) : Conforms c tg Dev.mem (viaHub c tg) := by
  intro d req txns hp hne
  cases hh : c.hub with
  | none =>
    rw [hh] at hp
    obtain ⟨body, m, b1, b2, b3⟩ := dummyReply_ok c.ver tg d req txns hp hne
    refine ⟨pktEcho c.ver req, body, { d with mem := m }, ?_, ?_, b3, b2⟩
    · simp only [viaHub, hh, b1]
    · refine ⟨[], _, rfl, by rw [hh], ?_⟩
      rw [hh]
      cases c.ver <;> rfl
  | some x =>
    obtain ⟨ip, port⟩ := x
    rw [hh] at hp
    obtain ⟨body, m, b1, b2, b3⟩ := dummyReply_ok c.ver tg d (req.drop 2) txns hp hne
    refine ⟨htonl (BitVec.ofNat 32 (4 * (pktEcho c.ver (req.drop 2) ++ body).length + 8)) :: ip :: port.setWidth 32 ::
      pktEcho c.ver (req.drop 2), body, { d with mem := m }, ?_, ?_, b3, b2⟩
    · simp only [viaHub, hh, b1]
      rfl
    · refine ⟨[_, ip, port.setWidth 32], pktEcho c.ver (req.drop 2), rfl, ?_, ?_⟩
      · rw [hh]; exact ⟨_, rfl⟩
      · rw [hh]; cases c.ver <;> rfl

end
end Verif
