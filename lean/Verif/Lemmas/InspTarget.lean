import Verif.Lemmas.Inspector
import Verif.Lemmas.Seq
/-! The replies of the test target announce what follows the headers. -/

set_option autoImplicit false
set_option linter.unusedSimpArgs false

namespace Verif.Insp
open Spec

variable {σ : Type} (v : Ver) (tg : Target σ)

theorem replyHdr_wc {ty : Ty} (hs : supported v ty) (wc id : W) (hwc : wc.toNat < 2 ^ wcBits v) : field (replyHdr v ty wc id) 8 (wcBits v) = wc.toNat := by
  have hex : ∃ h, expectedHeader v ty wc id 0 = some h ∧ ∃ info : BitVec 8, calcHeader v ty wc id info = some h := by
    cases v with
    | v1 =>
      cases hc : calcHeader .v1 ty wc id 4#8 with
      | none => exact absurd hs ((calcHeader_none_iff _ _ _ _ _).1 hc)
      | some h => exact ⟨h, hc, _, hc⟩
    | v2 =>
      cases hc : calcHeader .v2 ty wc id 0 with
      | none => exact absurd hs ((calcHeader_none_iff _ _ _ _ _).1 hc)
      | some h => exact ⟨h, hc, _, hc⟩
  obtain ⟨h, h1, info, h2⟩ := hex
  unfold replyHdr
  rw [h1, Option.getD_some, (calcHeader_fields h2).2.2.1, Nat.mod_eq_of_lt hwc]

theorem execTxn_wc {h : Hdr} {t rest ds : List W} {hw : W} {m m' : σ} (hs : supported v h.ty) (hwc : h.wc.toNat < 2 ^ wcBits v)
    (he : execTxn v tg h t m = some (some (hw :: ds, m', rest))) (hty : h.ty = .read ∨ h.ty = .niRead ∨ h.ty = .configRead) :
    field hw 8 (wcBits v) = h.wc.toNat := by
  obtain ⟨ty, wc, id, info⟩ := h
  simp only at hs hwc hty ⊢
  rcases hty with rfl | rfl | rfl
  all_goals
    simp only [execTxn] at he
    split at he <;> cases he
    exact replyHdr_wc v hs _ _ hwc

/-- The transactions with the words they return. -/
def withData (txns : List (Nat × Txn)) (vals : List (List W)) : List (Nat × Txn × List W) := (txns.zip vals).map fun q => (q.1.1, q.1.2, q.2)

theorem parse_supported {v : Ver} {w : W} {d : Hdr} (h : extractHeader v w = some d) : supported v d.ty ∧ d.wc.toNat < 2 ^ wcBits v ∧ d.id.toNat < 2 ^ idBits v := by
  obtain ⟨_, h2, h3, h4, _⟩ := (extractHeader_iff _ _ _).1 h
  refine ⟨supported_of_wire v h2, ?_, ?_⟩
  · rw [h3]; exact Nat.mod_lt _ (Nat.pow_pos (by decide))
  · rw [h4]; exact Nat.mod_lt _ (Nat.pow_pos (by decide))

theorem parse_ty {n : Nat} {t rest : List W} {ty : Ty} {txn : Txn} (h : parseBody n t ty = some (txn, rest)) :
    txn.ty = ty ∧ (ty = .read ∨ ty = .niRead ∨ ty = .configRead → (dataWords txn).getD 0 = n) ∧ rest.length ≤ t.length := by
  cases ty <;> simp only [parseBody] at h
  all_goals repeat' split at h
  all_goals first
    | (cases h; done)
    | (cases h; simp [Txn.ty, dataWords]; done)
    | (cases h; refine ⟨rfl, by simp, by simp <;> omega⟩)

theorem analyzeLoop_full (fuel fuel' : Nat) (ws : List W) (txns : List (Nat × Txn)) (m : σ) (r0 : List W)
    (hp : parseTxns v fuel ws = some txns) (hne : ws ≠ []) (hf : ws.length ≤ fuel') :
    ∃ body, analyzeLoop v tg fuel' ws m r0 = .done (r0 ++ body) (execTxns v tg (txns.map Prod.snd) m).2 ∧
      FullReply v (withData txns (execTxns v tg (txns.map Prod.snd) m).1) body := by
  induction fuel generalizing ws txns m r0 fuel' with
  | zero =>
    cases ws with
    | nil => exact absurd rfl hne
    | cons w ws => cases hp
  | succ fuel ih =>
    cases ws with
    | nil => exact absurd rfl hne
    | cons w ws =>
      cases fuel' with
      | zero => simp at hf
      | succ fuel' =>
        rw [parseTxns] at hp
        cases h1 : parseTxn v (w :: ws) with
        | none => rw [h1] at hp; cases hp
        | some x =>
          obtain ⟨id, txn, rest⟩ := x
          rw [h1] at hp
          simp only [Option.map_eq_some_iff] at hp
          obtain ⟨l, hl, rfl⟩ := hp
          obtain ⟨d, d1, d2, d3, d4⟩ := parseTxn_hdr h1
          obtain ⟨s1, s2, s3⟩ := parse_supported d1
          obtain ⟨t1, t2, t3⟩ := parse_ty d4
          obtain ⟨hw, e1, e2⟩ := execTxn_ok v tg s1 s3 d4 m
          have hlen : (execAccs v tg txn.accs m).1.length = (dataWords txn).getD 0 := by
            rw [execAccs_txn_length]; cases txn <;> rfl
          have hcons : ∀ (l : List (Nat × Txn × List W)) (b : List W), FullReply v l b →
              FullReply v ((id, txn, (execAccs v tg txn.accs m).1) :: l) (hw :: (execAccs v tg txn.accs m).1 ++ b) := by
            intro l b hb
            refine .cons e2.1 e2.2.1 (by rw [e2.2.2.1, d3]) hlen ?_ hb
            intro hty
            rw [t1] at hty
            rw [execTxn_wc v tg s1 s2 e1 hty, hlen, t2 hty]
          rw [analyzeLoop, d1]
          simp only [d2, ne_eq, not_true_eq_false, if_false, e1, List.map_cons, execTxns]
          by_cases hr : rest = []
          · subst hr
            rw [if_pos rfl, parseTxns_nil hl]
            refine ⟨hw :: (execAccs v tg txn.accs m).1, rfl, ?_⟩
            have := hcons [] [] .nil
            simpa [withData, execTxns] using this
          · rw [if_neg hr]
            obtain ⟨body, b1, b2⟩ := ih fuel' rest l (execAccs v tg txn.accs m).2 (r0 ++ hw :: (execAccs v tg txn.accs m).1) hl hr (by simp at hf; omega)
            refine ⟨hw :: (execAccs v tg txn.accs m).1 ++ body, ?_, ?_⟩
            · rw [b1]; simp
            · exact hcons _ _ b2

theorem dummyReply_full (d : Dev σ) (ws : List W) (txns : List (Nat × Txn)) (hp : parsePacket v ws = some (0, txns)) (hne : txns ≠ []) :
    ∃ body d', dummyReply v tg d ws = (some (pktEcho v ws ++ body), d') ∧
      FullReply v (withData txns (execTxns v tg (txns.map Prod.snd) d.mem).1) body := by
  cases v with
  | v1 =>
    simp only [parsePacket, Option.map_eq_some_iff, Prod.mk.injEq, true_and] at hp
    obtain ⟨l, hl, rfl⟩ := hp
    have hws : ws ≠ [] := by rintro rfl; exact hne (parseTxns_nil hl)
    obtain ⟨body, b1, b2⟩ := analyzeLoop_full .v1 tg _ ws.length ws l d.mem [] hl hws (Nat.le_refl _)
    refine ⟨body, { d with mem := (execTxns .v1 tg (l.map Prod.snd) d.mem).2 }, ?_, b2⟩
    simp only [dummyReply, b1]
    rfl
  | v2 =>
    cases ws with
    | nil => cases hp
    | cons p t =>
      simp only [parsePacket] at hp
      split at hp
      · rename_i hh
        simp only [Option.map_eq_some_iff, Prod.mk.injEq] at hp
        obtain ⟨l, hl, h0, rfl⟩ := hp
        have hws : t ≠ [] := by rintro rfl; exact hne (parseTxns_nil hl)
        obtain ⟨body, b1, b2⟩ := analyzeLoop_full .v2 tg _ t.length t l d.mem [p] hl hws (Nat.le_refl _)
        refine ⟨body, { d with mem := (execTxns .v2 tg (l.map Prod.snd) d.mem).2 }, ?_, b2⟩
        simp only [dummyReply]
        rw [if_neg (by rw [pkt_type p hh.2.2.2]; simp), pkt_cnt p h0]
        simp only [ne_eq, not_true_eq_false, false_and, if_false, b1]
        rfl
      · cases hp

end Verif.Insp
