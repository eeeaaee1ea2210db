import Verif.Model.HubWire
import Verif.Spec.Hub
import Verif.Spec.Header
import Verif.Lemmas.Target
import Verif.Props.C50
import Verif.Props.C21
/-!
# Words and bytes
-/

set_option autoImplicit false
set_option linter.unusedSimpArgs false

namespace Verif
open Verif.Hub (Bytes)
open Verif.Spec.Hub (be)
open Spec

theorem leBytes_length (w : W) : (leBytes w).length = 4 := rfl

theorem wordBytes_length (ws : List W) : (wordBytes ws).length = 4 * ws.length := by
  induction ws with
  | nil => rfl
  | cons w ws ih =>
    have : wordBytes (w :: ws) = leBytes w ++ wordBytes ws := rfl
    rw [this, List.length_append, ih, leBytes_length, List.length_cons]
    omega

theorem wordBytes_append (a b : List W) : wordBytes (a ++ b) = wordBytes a ++ wordBytes b := by
  simp [wordBytes]

theorem wordBytes_cons (w : W) (ws : List W) : wordBytes (w :: ws) = leBytes w ++ wordBytes ws := rfl

theorem wordBytes_flatMap {α : Type} (f : α → List W) (l : List α) : wordBytes (l.flatMap f) = l.flatMap fun x => wordBytes (f x) := by
  simp [wordBytes, List.flatMap_assoc]

theorem ofLE_wordBytes (ws : List W) : ofLE (wordBytes ws) = ws := by
  induction ws with
  | nil => rfl
  | cons w ws ih =>
    rw [wordBytes_cons]
    simp only [leBytes, List.cons_append, List.nil_append, ofLE, ih]
    congr 1
    apply BitVec.eq_of_toNat_eq
    have := w.isLt
    rw [BitVec.toNat_ofNat]
    omega

theorem htonl_toNat (w : W) : (htonl w).toNat = w.toNat % 256 * 16777216 + w.toNat / 256 % 256 * 65536 + w.toNat / 65536 % 256 * 256 +
    w.toNat / 16777216 := by
  have := w.isLt
  rw [htonl, BitVec.toNat_ofNat]
  omega

/-- Four digits. -/
theorem digits (x : Nat) (h : x < 2 ^ 32) : ∃ a b c d, a < 256 ∧ b < 256 ∧ c < 256 ∧ d < 256 ∧ x = a + 256 * b + 65536 * c + 16777216 * d ∧
    x % 256 = a ∧ x / 256 % 256 = b ∧ x / 65536 % 256 = c ∧ x / 16777216 = d := by
  refine ⟨x % 256, x / 256 % 256, x / 65536 % 256, x / 16777216, by omega, by omega, by omega, by omega, by omega, rfl, rfl, rfl, rfl⟩

theorem undigits (a b c d : Nat) (hb : b < 256) (hc : c < 256) (hd : d < 256) :
    (a * 16777216 + b * 65536 + c * 256 + d) % 256 = d ∧ (a * 16777216 + b * 65536 + c * 256 + d) / 256 % 256 = c ∧
    (a * 16777216 + b * 65536 + c * 256 + d) / 65536 % 256 = b ∧ (a * 16777216 + b * 65536 + c * 256 + d) / 16777216 = a := by
  refine ⟨by omega, by omega, by omega, by omega⟩

theorem leBytes_htonl (w : W) : leBytes (htonl w) = be 4 w.toNat := by
  rw [TraMgr.be4]
  simp only [leBytes, TraMgr.be32, htonl_toNat]
  obtain ⟨a, b, c, d, ha, hb, hc, hd, hx, e0, e1, e2, e3⟩ := digits _ w.isLt
  obtain ⟨u0, u1, u2, u3⟩ := undigits a b c d hb hc hd
  simp only [e0, e1, e2, e3, u0, u1, u2, u3, Nat.mod_eq_of_lt ha, Nat.mod_eq_of_lt hd]

theorem leBytes_be (w : W) : leBytes w = be 4 (htonl w).toNat := by
  rw [TraMgr.be4]
  simp only [leBytes, TraMgr.be32, htonl_toNat]
  obtain ⟨a, b, c, d, ha, hb, hc, hd, hx, e0, e1, e2, e3⟩ := digits _ w.isLt
  obtain ⟨u0, u1, u2, u3⟩ := undigits a b c d hb hc hd
  simp only [e0, e1, e2, e3, u0, u1, u2, u3, Nat.mod_eq_of_lt ha, Nat.mod_eq_of_lt hd]

/-- The bytes of a word whose halves are given. -/
theorem leBytes_halves (w : W) (port : BitVec 16) (n : Nat) (h1 : field w 0 16 = port.toNat) (h2 : field w 16 8 * 256 + field w 24 8 = n) :
    leBytes w = be 2 (bswap16 port).toNat ++ be 2 n := by
  obtain ⟨a, b, c, d, ha, hb, hc, hd, hx, e0, e1, e2, e3⟩ := digits _ w.isLt
  have hp : port.toNat = a + 256 * b := by rw [← h1, field]; omega
  have hn : n = 256 * c + d := by
    have f1 : field w 16 8 = c := by simp only [field, Nat.reducePow]; exact e2
    have f2 : field w 24 8 = d := by simp only [field, Nat.reducePow, e3]; omega
    rw [f1, f2] at h2; clear hx; omega
  have hs : (bswap16 port).toNat = 256 * a + b := by rw [bswap16_toNat, hp]; clear hx e0 e1 e2 e3 h1 h2 hp hn; omega
  rw [TraMgr.be2, TraMgr.be2, hs, hn]
  simp only [leBytes, TraMgr.be16, e0, e1, e2, e3, List.cons_append, List.nil_append, List.cons.injEq, and_true]
  refine ⟨?_, ?_, ?_, ?_⟩ <;> clear hx e0 e1 e2 e3 h1 h2 hp hn hs <;> omega

/-- Port and error code in one word. -/
def portCode (port code : BitVec 16) : W := port.setWidth 32 ||| (bswap16 code).setWidth 32 <<< 16

theorem portCode_toNat (port code : BitVec 16) : (portCode port code).toNat = port.toNat + 65536 * (code.toNat % 256 * 256 + code.toNat / 256) := by
  have hp := port.isLt
  have hc := code.isLt
  unfold portCode
  rw [BitVec.toNat_or, BitVec.toNat_shiftLeft, BitVec.toNat_setWidth, BitVec.toNat_setWidth, bswap16_toNat, Nat.shiftLeft_eq, Nat.or_comm]
  have e : (code.toNat % 256 * 256 + code.toNat / 256) % 2 ^ 32 * 2 ^ 16 % 2 ^ 32 = 2 ^ 16 * (code.toNat % 256 * 256 + code.toNat / 256) := by omega
  have e2 : port.toNat % 2 ^ 32 = port.toNat := by omega
  rw [e, e2, ← Nat.two_pow_add_eq_or_of_lt hp]; omega

theorem portCode_zero (port : BitVec 16) : portCode port 0#16 = port.setWidth 32 := by
  apply BitVec.eq_of_toNat_eq
  rw [portCode_toNat, BitVec.toNat_setWidth]
  have := port.isLt
  simp
  omega

theorem leBytes_portCode (port code : BitVec 16) : leBytes (portCode port code) = be 2 (bswap16 port).toNat ++ be 2 code.toNat := by
  have hp := port.isLt
  have hc := code.isLt
  apply leBytes_halves
  · simp only [field, portCode_toNat]; omega
  · have e : (portCode port code).toNat / 2 ^ 16 = code.toNat % 256 * 256 + code.toNat / 256 := by rw [portCode_toNat]; omega
    have e' : (portCode port code).toNat / 2 ^ 24 = code.toNat % 256 := by
      rw [show (2 : Nat) ^ 24 = 2 ^ 16 * 2 ^ 8 from rfl, ← Nat.div_div_eq_div_mul, e]; omega
    have hq : (code.toNat % 256 * 256 + code.toNat / 256) % 2 ^ 8 = code.toNat / 256 := by clear e e'; omega
    have hq' : code.toNat % 256 % 2 ^ 8 = code.toNat % 256 := by clear e e'; omega
    simp only [field, e, e', hq, hq']
    clear e e' hq hq'
    omega

theorem be4_mod (n : Nat) : be 4 (n % 2 ^ 32) = be 4 n := by
  rw [TraMgr.be4, TraMgr.be4]
  simp only [TraMgr.be32, List.cons.injEq, and_true]
  omega

theorem ofBE_be4 (n : Nat) (h : n < 2 ^ 32) : TraMgr.ofBE (be 4 n) = n := by
  rw [TraMgr.be4]
  simp only [TraMgr.ofBE, TraMgr.be32, List.foldl_cons, List.foldl_nil]
  omega

theorem be_length (k n : Nat) : (be k n).length = k := by simp [be]

/-- A message behind its length. -/
theorem packet4_append (m rest : Bytes) (h : m.length < 2 ^ 32) : TraMgr.packet4 (be 4 m.length ++ m ++ rest) = some (m, rest) := by
  have h4 := be_length 4 m.length
  unfold TraMgr.packet4
  rw [List.append_assoc, if_neg (by rw [List.length_append]; omega)]
  rw [List.take_left' h4, List.drop_left' h4, ofBE_be4 _ h, if_neg (by rw [List.length_append]; omega), List.take_left' rfl, List.drop_left' rfl]

variable {σ : Type}

/-- What was in the reply before does not matter. -/
theorem analyzeLoop_acc (v : Ver) (tg : Spec.Target σ) (fuel : Nat) (ws : List W) (m : σ) (r0 r1 : List W) :
    analyzeLoop v tg fuel ws m (r0 ++ r1) = (match analyzeLoop v tg fuel ws m r1 with
      | .done r m' => .done (r0 ++ r) m'
      | o => o) := by
  induction fuel generalizing ws m r1 with
  | zero => rfl
  | succ fuel ih =>
    cases ws with
    | nil => rfl
    | cons w t =>
      simp only [analyzeLoop]
      cases extractHeader v w with
      | none => rfl
      | some h =>
        simp only
        by_cases hi : h.info ≠ reqInfo v
        · rw [if_pos hi, if_pos hi]
        · rw [if_neg hi, if_neg hi]
          rcases execTxn v tg h t m with _ | _ | ⟨r, m', t'⟩
          · rfl
          · rfl
          · simp only
            by_cases ht : t' = []
            · rw [if_pos ht, if_pos ht, List.append_assoc]
            · rw [if_neg ht, if_neg ht, List.append_assoc, ih]

/-- The answer of the target to a packet as words and as bytes. -/
theorem dummyReply_bytes (tg : Spec.Target σ) (d : Dev σ) (ws : List W) (txns : List (Nat × Txn)) (hp : parsePacket .v2 ws = some (0, txns))
    (hne : txns ≠ []) : ∃ r, dummyReply .v2 tg d ws = (some r, { d with mem := (execBytes tg d.mem ((wordBytes ws).drop 4)).1 }) ∧
      wordBytes r = (wordBytes ws).take 4 ++ (execBytes tg d.mem ((wordBytes ws).drop 4)).2 := by
  cases ws with
  | nil => cases hp
  | cons p t =>
    simp only [parsePacket] at hp
    split at hp
    · rename_i hh
      simp only [Option.map_eq_some_iff, Prod.mk.injEq] at hp
      obtain ⟨l, hl, h0, rfl⟩ := hp
      have hws : t ≠ [] := by rintro rfl; exact hne (parseTxns_nil hl)
      obtain ⟨body, b1, b2⟩ := analyzeLoop_ok .v2 tg _ t.length t l d.mem [] hl hws (Nat.le_refl _)
      have b3 := analyzeLoop_acc .v2 tg t.length t d.mem [p] []
      rw [b1] at b3
      simp only [List.nil_append, List.append_nil] at b1 b3
      have e : (wordBytes (p :: t)).drop 4 = wordBytes t := by rw [wordBytes_cons, List.drop_left' (leBytes_length p)]
      have e2 : (wordBytes (p :: t)).take 4 = leBytes p := by rw [wordBytes_cons, List.take_left' (leBytes_length p)]
      rw [e, e2]
      simp only [execBytes, ofLE_wordBytes, b1]
      refine ⟨[p] ++ body, ?_, by rw [wordBytes_append]; rfl⟩
      simp only [dummyReply]
      rw [if_neg (by rw [pkt_type p hh.2.2.2]; simp), pkt_cnt p h0]
      simp only [ne_eq, not_true_eq_false, false_and, if_false, b3]
    · cases hp

end Verif
