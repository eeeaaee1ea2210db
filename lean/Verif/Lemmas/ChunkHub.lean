import Verif.Lemmas.HubWire
import Verif.Lemmas.Chunk
import Verif.Lemmas.Seq
/-!
# The replies of a chunk, packet by packet
-/

set_option autoImplicit false
set_option linter.unusedSimpArgs false

namespace Verif
open Spec

theorem clientValidate_word (c : Cfg) (h : Heap) (b : Buf) : (clientValidate c h b).2.word = h.word := by
  unfold clientValidate; split <;> rfl

theorem clientValidate_fst (c : Cfg) (h : Heap) (b : Buf) : (clientValidate c h b).1 = validateBuf c h.word b := by
  unfold clientValidate; split
  · rename_i h1; rw [h1]
  · rfl

theorem chunkValidate_first {c : Cfg} {e : Exc} : ∀ (bs : List Buf) (H : Heap) (ws : List W) (i : Nat) (b : Buf),
    (∀ (j : Nat) (b' : Buf), j < i → bs[j]? = some b' → validateBuf c H.word b' = .ok) → bs[i]? = some b →
    validateBuf c H.word b = .err e → (chunkValidate c H bs ws).1 = .err e := by
  intro bs
  induction bs with
  | nil => intro H ws i b _ h; simp at h
  | cons b0 bs ih =>
    intro H ws i b hok hb he
    have hw := clientValidate_word c H b0
    have hf := clientValidate_fst c H b0
    cases i with
    | zero =>
      simp at hb; subst hb
      rw [he] at hf
      unfold chunkValidate
      cases hcv : clientValidate c H b0 with
      | mk o h' => rw [hcv] at hf; cases hf; rfl
    | succ i =>
      rw [hok 0 b0 (by omega) rfl] at hf
      unfold chunkValidate
      cases hcv : clientValidate c H b0 with
      | mk o h' =>
        rw [hcv] at hf hw; cases hf
        simp only at hw ⊢
        exact ih h' _ i b (fun j b' hj hb' => by rw [hw]; exact hok (j + 1) b' (by omega) (by simpa using hb')) (by simpa using hb) (by rw [hw]; exact he)

theorem chunkValidate_all {c : Cfg} : ∀ (bs : List Buf) (H : Heap) (ws : List W),
    (∀ b' ∈ bs, validateBuf c H.word b' = .ok) → (chunkValidate c H bs ws).1 = .ok := by
  intro bs
  induction bs with
  | nil => intro H ws _; rfl
  | cons b0 bs ih =>
    intro H ws hok
    have hw := clientValidate_word c H b0
    have hf := clientValidate_fst c H b0
    rw [hok b0 (by simp)] at hf
    unfold chunkValidate
    cases hcv : clientValidate c H b0 with
    | mk o h' =>
      rw [hcv] at hf hw; cases hf
      simp only at hw ⊢
      exact ih h' _ (fun b' hb' => by rw [hw]; exact hok b' (by simp [hb']))

theorem scatter_at : ∀ (bs : List Buf) (items : List (List W)) (h : Heap) (i : Nat) (b : Buf) (it : List W), bs.Pairwise Disj →
    (∀ (j : Nat) (b' : Buf) (it' : List W), j < i → bs[j]? = some b' → items[j]? = some it' → it'.length = b'.words) →
    items.length = bs.length → bs[i]? = some b → items[i]? = some it →
    ∃ h0 : Heap, ∀ l ∈ bufLocs b, (scatter h (bs.flatMap (·.reply)) items.flatten).word l =
      (scatter h0 b.reply ((it ++ (items.drop (i + 1)).flatten).take b.words)).word l := by
  intro bs
  induction bs with
  | nil => intro items h i b it _ _ _ hb; simp at hb
  | cons b0 bs ih =>
    intro items h i b it hd hlen hl hb hit
    cases items with
    | nil => simp at hit
    | cons it0 items =>
      obtain ⟨hd0, hd1⟩ := List.pairwise_cons.mp hd
      rw [scatter_cons]
      cases i with
      | zero =>
        simp at hb hit; subst hb; subst hit
        exact ⟨h, fun l hl => by rw [scatter_rest hd0 _ _ _ hl]; rfl⟩
      | succ i =>
        have h0 := hlen 0 b0 it0 (by omega) rfl rfl
        rw [List.flatten_cons, ← h0, List.drop_left' rfl]
        have := ih items (scatter h b0.reply ((it0 ++ items.flatten).take it0.length)) i b it hd1
          (fun j b' it' hj hb' hit' => hlen (j + 1) b' it' (by omega) (by simpa using hb') (by simpa using hit'))
          (by simpa using hl) (by simpa using hb) (by simpa using hit)
        simpa using this

end Verif
