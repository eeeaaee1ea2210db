import Verif.Model.Dummy
import Verif.Lemmas.Inspector
import Verif.Lemmas.HubWire
/-! The dummy hardware runs the loop of `Verif/Model/Target.lean`. -/

set_option autoImplicit false
set_option linter.unusedSimpArgs false

namespace Verif.Dummy
open Verif.Insp
open Verif.Hub (Bytes)
open Spec

theorem push_length {α : Type} (q : List α) (x : α) : (push q x).length = q.length := by simp [push]

/-- What transactions do not change. -/
structure Same (d d' : DH) : Prop where
  cfg : d'.cfg = d.cfg
  hist : d'.hist = d.hist
  last : d'.last = d.last
  traffic : d'.traffic = d.traffic
  hack : d'.hack = d.hack
  pkt : d'.pkt = d.pkt
  rcvd : d'.rcvd.length = d.rcvd.length
  sent : d'.sent.length = d.sent.length

theorem Same.refl (d : DH) : Same d d := ⟨rfl, rfl, rfl, rfl, rfl, rfl, rfl, rfl⟩

theorem Same.trans {a b c : DH} (h : Same a b) (g : Same b c) : Same a c :=
  ⟨g.cfg.trans h.cfg, g.hist.trans h.hist, g.last.trans h.last, g.traffic.trans h.traffic, g.hack.trans h.hack, g.pkt.trans h.pkt,
    g.rcvd.trans h.rcvd, g.sent.trans h.sent⟩

theorem Same.tg {d d' : DH} (h : Same d d') : d'.tg = d.tg := by simp [DH.tg, h.cfg]

theorem rdLoop_snd (f : W → W) (inc : Bool) (n : Nat) (a : W) (m : W → W) : (rdLoop (dummyTarget f) inc n a m).2 = m := by
  induction n generalizing a with
  | zero => rfl
  | succ n ih => rw [rdLoop]; exact ih _

theorem cfgLoop_snd (f : W → W) (n : Nat) (a : W) (m : W → W) : (cfgLoop (dummyTarget f) n a m).2 = m := by
  induction n generalizing a with
  | zero => rfl
  | succ n ih => rw [cfgLoop]; exact ih _

/-- One transaction. -/
theorem step_sim {v : Ver} {d : DH} {h : Hdr} {t t' rep : List W} {m' : W → W} (w : W)
    (he : execTxn v d.tg h t d.mem = some (some (rep, m', t'))) :
    ∃ r, hostBody h t = some (some (r, t')) ∧ (cb v d (.txn w h r)).1.mem = m' ∧ (cb v d (.txn w h r)).1.reply = d.reply ++ rep ∧
      Same d (cb v d (.txn w h r)).1 := by
  obtain ⟨ty, wc, id, info⟩ := h
  unfold execTxn at he
  cases ty <;> simp only at he
  case bot =>
    simp only [Option.some.injEq, Prod.mk.injEq] at he
    obtain ⟨rfl, rfl, rfl⟩ := he
    exact ⟨.bot, rfl, rfl, rfl, rfl, rfl, rfl, rfl, rfl, rfl, push_length _ _, push_length _ _⟩
  case read =>
    split at he
    rotate_left
    · simp at he
    simp only [Option.some.injEq, Prod.mk.injEq] at he
    obtain ⟨rfl, rfl, rfl⟩ := he
    exact ⟨.read _, rfl, (rdLoop_snd _ _ _ _ _).symm, rfl, rfl, rfl, rfl, rfl, rfl, rfl, push_length _ _, push_length _ _⟩
  case niRead =>
    split at he
    rotate_left
    · simp at he
    simp only [Option.some.injEq, Prod.mk.injEq] at he
    obtain ⟨rfl, rfl, rfl⟩ := he
    exact ⟨.niRead _, rfl, (rdLoop_snd _ _ _ _ _).symm, rfl, rfl, rfl, rfl, rfl, rfl, rfl, push_length _ _, push_length _ _⟩
  case configRead =>
    split at he
    rotate_left
    · simp at he
    simp only [Option.some.injEq, Prod.mk.injEq] at he
    obtain ⟨rfl, rfl, rfl⟩ := he
    exact ⟨.cfgRead _, rfl, (cfgLoop_snd _ _ _ _).symm, rfl, rfl, rfl, rfl, rfl, rfl, rfl, push_length _ _, push_length _ _⟩
  case write =>
    split at he
    rotate_left
    · simp at he
    split at he
    rotate_left
    · simp at he
    rename_i hle
    simp only [Option.some.injEq, Prod.mk.injEq] at he
    obtain ⟨rfl, rfl, rfl⟩ := he
    exact ⟨.write _ _, (by simp only [hostBody]; rw [if_pos hle]), rfl, rfl, rfl, rfl, rfl, rfl, rfl, rfl, push_length _ _, push_length _ _⟩
  case niWrite =>
    split at he
    rotate_left
    · simp at he
    split at he
    rotate_left
    · simp at he
    rename_i hle
    simp only [Option.some.injEq, Prod.mk.injEq] at he
    obtain ⟨rfl, rfl, rfl⟩ := he
    exact ⟨.niWrite _ _, (by simp only [hostBody]; rw [if_pos hle]), rfl, rfl, rfl, rfl, rfl, rfl, rfl, rfl, push_length _ _, push_length _ _⟩
  case rmwSum =>
    split at he
    rotate_left
    · simp at he
    simp only [Option.some.injEq, Prod.mk.injEq] at he
    obtain ⟨rfl, rfl, rfl⟩ := he
    exact ⟨.rmwSum _ _, rfl, rfl, rfl, rfl, rfl, rfl, rfl, rfl, rfl, push_length _ _, push_length _ _⟩
  case rmwBits =>
    split at he
    rotate_left
    · simp at he
    simp only [Option.some.injEq, Prod.mk.injEq] at he
    obtain ⟨rfl, rfl, rfl⟩ := he
    exact ⟨.rmwBits _ _ _, rfl, rfl, rfl, rfl, rfl, rfl, rfl, rfl, rfl, push_length _ _, push_length _ _⟩
  case rai => cases he

/-- The loop. -/
theorem loop_sim (v : Ver) (n k : Nat) (ws : List W) (d : DH) (r : List W) (m' : W → W) (hk : n ≤ k)
    (h : analyzeLoop v d.tg n ws d.mem d.reply = .done r m') :
    ∃ d', hostRun v (cb v) true k false ws d = .ret true d' [] ∧ d'.mem = m' ∧ d'.reply = r ∧ Same d d' := by
  induction n generalizing k ws d with
  | zero => cases h
  | succ n ih =>
    cases k with
    | zero => omega
    | succ k =>
      cases ws with
      | nil => cases h
      | cons w t =>
        simp only [analyzeLoop] at h
        rw [hostRun]
        cases he : extractHeader v w with
        | none => rw [he] at h; cases h
        | some hd =>
          rw [he] at h
          simp only at h ⊢
          by_cases hi : hd.info ≠ reqInfo v
          · rw [if_pos hi] at h; cases h
          · rw [if_neg hi] at h ⊢
            cases hx : execTxn v d.tg hd t d.mem with
            | none => rw [hx] at h; cases h
            | some o =>
              cases o with
              | none => rw [hx] at h; cases h
              | some q =>
                obtain ⟨rep, m1, t'⟩ := q
                rw [hx] at h
                simp only at h
                obtain ⟨rq, s1, s2, s3, s4⟩ := step_sim w hx
                rw [s1]
                simp only
                by_cases ht : t' = []
                · rw [if_pos ht] at h ⊢
                  cases h
                  exact ⟨_, rfl, s2, s3, s4⟩
                · rw [if_neg ht] at h ⊢
                  obtain ⟨d', a1, a2, a3, a4⟩ := ih k t' (cb v d (.txn w hd rq)).1 (by omega) (by rw [s4.tg, s2, s3]; exact h)
                  exact ⟨d', a1, a2, a3, s4.trans a4⟩

/-! ## Exceptions -/

/-- Configuration space reads that go too far. -/
def oob (n : Nat) : HCall → Bool
  | .txn _ h (.cfgRead a) => (List.range h.wc.toNat).any fun i => decide (n ≤ (a + BitVec.ofNat 32 i).toNat)
  | _ => false

theorem cb_dead (v : Ver) (d : DH) (c : HCall) : (cb v d c).1.dead = (d.dead || oob d.cfg.length c) ∧ (cb v d c).1.cfg = d.cfg := by
  unfold cb
  split <;> try (constructor <;> simp [oob, DH.answer, DH.header]; done)
  · simp only [oob, Bool.or_false]
    split
    · simp
    · simp only
      split <;> simp

theorem fold_dead (v : Ver) (cs : List HCall) (d : DH) :
    (cs.foldl (fun s c => (cb v s c).1) d).dead = (d.dead || cs.any (oob d.cfg.length)) := by
  induction cs generalizing d with
  | nil => simp
  | cons c cs ih =>
    rw [List.foldl_cons, ih, (cb_dead v d c).1, (cb_dead v d c).2, List.any_cons, Bool.or_assoc]

theorem not_oob (c : HCall) (id : Nat) (t : Txn) (h : c.asTxn = some (id, t)) (hc : ∀ a n, t = .cfgRead a n → a.toNat + n ≤ 10) :
    oob 10 c = false := by
  unfold oob
  split
  · rename_i w hd a
    simp only [HCall.asTxn, Option.some.injEq, Prod.mk.injEq] at h
    have := hc a hd.wc.toNat h.2.symm
    rw [List.any_eq_false]
    intro i hi
    rw [List.mem_range] at hi
    have e : (a + BitVec.ofNat 32 i).toNat = a.toNat + i := by
      rw [BitVec.toNat_add, BitVec.toNat_ofNat]; omega
    simp only [decide_eq_true_eq, e]
    omega
  · rfl

/-! ## Words and masks -/

theorem lit_hi (i : Nat) (h : i < 32) : (0xFF0000FF#32).getLsbD i = (decide (24 ≤ i) || decide (i < 8)) := by
  have : ∀ j : Fin 32, (0xFF0000FF#32).getLsbD j.1 = (decide (24 ≤ j.1) || decide (j.1 < 8)) := by decide
  exact this ⟨i, h⟩

theorem lit_lo (i : Nat) (h : i < 32) : (0x000000FF#32).getLsbD i = decide (i < 8) := by
  have : ∀ j : Fin 32, (0x000000FF#32).getLsbD j.1 = decide (j.1 < 8) := by decide
  exact this ⟨i, h⟩

theorem lit_mid (i : Nat) (h : i < 32) : (0x00FFFF00#32).getLsbD i = (decide (8 ≤ i) && decide (i < 24)) := by
  have : ∀ j : Fin 32, (0x00FFFF00#32).getLsbD j.1 = (decide (8 ≤ j.1) && decide (j.1 < 24)) := by decide
  exact this ⟨i, h⟩

theorem mask_split (w : W) : w &&& 0xFF0000FF#32 = (w >>> 24 <<< 24) ||| (w &&& 0x000000FF#32) := by
  apply BitVec.eq_of_getLsbD_eq
  intro i hi
  simp only [BitVec.getLsbD_and, BitVec.getLsbD_or, BitVec.getLsbD_shiftLeft, BitVec.getLsbD_ushiftRight, lit_hi i hi, lit_lo i hi]
  by_cases h : i < 24
  · simp only [h, decide_true, Bool.not_true, Bool.and_false, Bool.false_and, Bool.false_or]
    rw [show decide (24 ≤ i) = false from by simp; omega, Bool.false_or]
  · rw [show 24 + (i - 24) = i from by omega]
    simp [h, hi, show 24 ≤ i from by omega, show ¬ i < 8 from by omega]

/-- The outer bytes of a word. -/
theorem mask_toNat (w : W) : (w &&& 0xFF0000FF#32).toNat = w.toNat / 16777216 * 16777216 + w.toNat % 256 := by
  have hw := w.isLt
  rw [mask_split, BitVec.toNat_or, BitVec.toNat_shiftLeft, BitVec.toNat_ushiftRight, Nat.shiftLeft_eq, Nat.shiftRight_eq_div_pow]
  have e : (w &&& 0x000000FF#32).toNat = w.toNat % 256 := by
    have := toNat_and_mask w 8 (by decide)
    exact this
  rw [e, Nat.mod_eq_of_lt (by omega), Nat.mul_comm (w.toNat / 2 ^ 24), ← Nat.two_pow_add_eq_or_of_lt (by omega), Nat.mul_comm]

/-- The inner bytes of a word. -/
theorem mid_toNat (w : W) (h : w.toNat < 65536) : ((w <<< 8) &&& 0x00FFFF00#32).toNat = 256 * w.toNat := by
  have e : (w <<< 8) &&& 0x00FFFF00#32 = w <<< 8 := by
    apply BitVec.eq_of_getLsbD_eq
    intro i hi
    simp only [BitVec.getLsbD_and, BitVec.getLsbD_shiftLeft, lit_mid i hi]
    by_cases h8 : i < 8
    · simp [h8]
    · by_cases h24 : i < 24
      · simp [h24, show 8 ≤ i from by omega]
      · have : w.getLsbD (i - 8) = false := by
          apply Nat.testBit_lt_two_pow
          exact Nat.lt_of_lt_of_le h (by rw [show (65536 : Nat) = 2 ^ 16 from rfl]; exact Nat.pow_le_pow_right (by omega) (by omega))
        simp [this]
  rw [e, BitVec.toNat_shiftLeft, Nat.shiftLeft_eq]
  omega

end Verif.Dummy
