import Verif.Model.Dump
import Verif.Spec.Dump
/-!
# Lemmas about the script that prints registers
-/

set_option autoImplicit false

namespace Verif.Dump
open Verif Spec

theorem inFront_of_le : ∀ a b : Str, strLe a b = true → InFront a b
  | [], b, _ => .inl (List.nil_prefix)
  | _ :: _, [], h => by simp [strLe] at h
  | a :: as, b :: bs, h => by
    simp only [strLe, Bool.or_eq_true, decide_eq_true_eq, Bool.and_eq_true, beq_iff_eq] at h
    rcases h with h | ⟨rfl, h⟩
    · exact .inr ⟨[], a, b, as, bs, rfl, rfl, h⟩
    · rcases inFront_of_le as bs h with ⟨t, rfl⟩ | ⟨p, x, y, s, t, rfl, rfl, hxy⟩
      · exact .inl ⟨t, rfl⟩
      · exact .inr ⟨a :: p, x, y, s, t, rfl, rfl, hxy⟩

theorem strLe_total : ∀ a b : Str, strLe a b = false → strLe b a = true
  | [], _, h => by simp [strLe] at h
  | _ :: _, [], _ => rfl
  | a :: as, b :: bs, h => by
    simp only [strLe, Bool.or_eq_false_iff, decide_eq_false_iff_not, Bool.and_eq_false_iff, beq_eq_false_iff_ne] at h
    simp only [strLe, Bool.or_eq_true, decide_eq_true_eq, Bool.and_eq_true, beq_iff_eq]
    obtain ⟨h1, h2⟩ := h
    by_cases e : a = b
    · subst e
      exact .inr ⟨rfl, strLe_total as bs (by rcases h2 with h2 | h2; exact absurd rfl h2; exact h2)⟩
    · refine .inl ?_
      have : a.toNat ≠ b.toNat := fun h => e (Char.toNat_inj.1 h)
      omega

theorem strLe_trans : ∀ a b c : Str, strLe a b = true → strLe b c = true → strLe a c = true
  | [], _, _, _, _ => rfl
  | _ :: _, [], _, h, _ => by simp [strLe] at h
  | _ :: _, _ :: _, [], _, h => by simp [strLe] at h
  | a :: as, b :: bs, c :: cs, h1, h2 => by
    simp only [strLe, Bool.or_eq_true, decide_eq_true_eq, Bool.and_eq_true, beq_iff_eq] at h1 h2 ⊢
    rcases h1 with h1 | ⟨rfl, h1⟩ <;> rcases h2 with h2 | ⟨rfl, h2⟩
    · exact .inl (by omega)
    · exact .inl h1
    · exact .inl h2
    · exact .inr ⟨rfl, strLe_trans as bs cs h1 h2⟩

theorem ins_perm (s : Str) (l : List Str) : (ins s l).Perm (s :: l) := by
  induction l with
  | nil => exact .refl _
  | cons t ts ih =>
    unfold ins
    split
    · exact .refl _
    · exact (List.Perm.cons t ih).trans (List.Perm.swap s t ts)

theorem sort_perm (l : List Str) : (sortStr l).Perm l := by
  induction l with
  | nil => exact .refl _
  | cons s ss ih => exact (ins_perm s _).trans (List.Perm.cons s ih)

theorem ins_sorted (s : Str) (l : List Str) (h : l.Pairwise fun a b => strLe a b = true) : (ins s l).Pairwise fun a b => strLe a b = true := by
  induction l with
  | nil => simp [ins]
  | cons t ts ih =>
    unfold ins
    rw [List.pairwise_cons] at h
    split
    next hs =>
      refine List.pairwise_cons.2 ⟨fun x hx => ?_, List.pairwise_cons.2 h⟩
      rcases List.mem_cons.1 hx with rfl | hx
      · exact hs
      · exact strLe_trans _ _ _ hs (h.1 x hx)
    next hs =>
      refine List.pairwise_cons.2 ⟨fun x hx => ?_, ih h.2⟩
      rcases List.mem_cons.1 ((ins_perm s ts).mem_iff.1 hx) with rfl | hx
      · exact strLe_total _ _ (by simpa using hs)
      · exact h.1 x hx

theorem sort_sorted (l : List Str) : (sortStr l).Pairwise fun a b => strLe a b = true := by
  induction l with
  | nil => exact .nil
  | cons s ss ih => exact ins_sorted s _ ih

theorem loop_some (n : Node) (ok : Str → Bool) (l : List Str)
    (h : ∀ s ∈ l, ∃ v, (n.getNode s).bind n.sub? = some v ∧ (ok s = true ↔ v.d.perm ≠ .write)) : loop n l = some (l.filter ok) := by
  induction l with
  | nil => rfl
  | cons s ss ih =>
    obtain ⟨v, hv, ho⟩ := h s (List.mem_cons_self ..)
    have := ih fun t ht => h t (List.mem_cons_of_mem _ ht)
    simp only [loop, hv, this, Option.map_some]
    by_cases hp : v.d.perm = .write
    · rw [if_pos hp, List.filter_cons_of_neg (fun hk => (ho.1 hk) hp)]
    · rw [if_neg hp, List.filter_cons_of_pos (ho.2 hp)]

theorem shown_eq (see : DevRes → Option ValOut) (f : Str → W) (l : List Str) (rs : List DevRes) (tl : List (Option ValOut))
    (h : rs.map see = l.map (fun s => some (.data [f s])) ++ tl) : shown see l rs = l.map fun s => (s, f s) := by
  induction l generalizing rs with
  | nil => cases rs <;> rfl
  | cons s ss ih =>
    cases rs with
    | nil => simp at h
    | cons r rs =>
      simp only [List.map_cons, List.cons_append, List.cons.injEq] at h
      simp only [shown, h.1, List.map_cons, ih rs h.2]

theorem output_eq (see : DevRes → Option ValOut) (f : Str → W) (l : List Str) (rs : List DevRes)
    (h : rs.map see = l.map (fun s => some (.data [f s])) ++ [some (.data [])]) : output see l rs = l.map fun s => (s, f s) := by
  have hl : (rs.map see).getLast? = some (some (.data [])) := by rw [h, List.getLast?_concat]
  rw [List.getLast?_map] at hl
  unfold output
  cases e : rs.getLast? with
  | none => rw [e] at hl; simp at hl
  | some r =>
    rw [e, Option.map_some, Option.some.injEq] at hl
    simp only [hl, Option.isSome_some, if_true]
    exact shown_eq see f l rs _ h

end Verif.Dump
