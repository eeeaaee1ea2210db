import Verif.Model.Decode
import Verif.Lemmas.Node
/-!
# The comparisons of the decoder
-/

set_option autoImplicit false
set_option linter.unusedSimpArgs false

namespace Verif
namespace Decoder

theorem hiMask_bit (w k : Nat) : (hiMask w).getLsbD k = (decide (k < 32) && !decide (k < w)) := by
  unfold hiMask
  simp only [BitVec.getLsbD_not, BitVec.getLsbD_ofNat, Nat.testBit_two_pow_sub_one]
  by_cases h : k < 32 <;> simp [h]

theorem orProd_bit_aux (l : List Slave) (x : W) (k : Nat) :
    (l.foldl (fun x s => x ||| (s.base &&& hiMask s.width)) x).getLsbD k =
      (x.getLsbD k || l.any fun s => s.base.getLsbD k && (hiMask s.width).getLsbD k) := by
  induction l generalizing x with
  | nil => simp
  | cons s l ih => rw [List.foldl_cons, ih]; simp [Bool.or_assoc]

theorem orProd_bit (l : List Slave) (k : Nat) :
    (orProd l).getLsbD k = l.any fun s => s.base.getLsbD k && (hiMask s.width).getLsbD k := by
  unfold orProd; rw [orProd_bit_aux]; simp

theorem andProd_bit_aux (l : List Slave) (x : W) (k : Nat) (hk : k < 32) :
    (l.foldl (fun x s => x &&& (s.base ||| ~~~ hiMask s.width)) x).getLsbD k =
      (x.getLsbD k && l.all fun s => s.base.getLsbD k || !(hiMask s.width).getLsbD k) := by
  induction l generalizing x with
  | nil => simp
  | cons s l ih => rw [List.foldl_cons, ih]; simp [Bool.and_assoc, hk]

theorem andProd_bit (l : List Slave) (k : Nat) (hk : k < 32) :
    (andProd l).getLsbD k = l.all fun s => s.base.getLsbD k || !(hiMask s.width).getLsbD k := by
  unfold andProd; rw [andProd_bit_aux l _ k hk]
  have : (0xFFFFFFFF#32).getLsbD k = true := by
    have : (0xFFFFFFFF#32) = BitVec.allOnes 32 := by decide
    rw [this, BitVec.getLsbD_allOnes]; simpa using hk
  rw [this]; simp

/-- Where two slaves differ above both widths, the bit is significant. -/
theorem addrMask_bit {l : List Slave} {s t : Slave} (hs : s ∈ l) (ht : t ∈ l) {k : Nat} (hk : k < 32) (h1 : s.width ≤ k) (h2 : t.width ≤ k)
    (hne : s.base.getLsbD k ≠ t.base.getLsbD k) : (addrMask l).getLsbD k = true := by
  unfold addrMask
  simp only [BitVec.getLsbD_and, BitVec.getLsbD_not, hk, decide_true, Bool.true_and, orProd_bit, andProd_bit l k hk, hiMask_bit]
  have a1 : decide (k < s.width) = false := by simp; omega
  have a2 : decide (k < t.width) = false := by simp; omega
  cases hb : s.base.getLsbD k with
  | true =>
    have hb' : t.base.getLsbD k = false := by cases h : t.base.getLsbD k; rfl; exact absurd (hb.trans h.symm) hne
    rw [Bool.and_eq_true]
    refine ⟨List.any_eq_true.2 ⟨s, hs, by simp [hb, a1]⟩, ?_⟩
    rw [Bool.not_eq_true']
    exact List.all_eq_false.2 ⟨t, ht, by simp [hb', a2]⟩
  | false =>
    have hb' : t.base.getLsbD k = true := by cases h : t.base.getLsbD k; exact absurd (hb.trans h.symm) hne; rfl
    rw [Bool.and_eq_true]
    refine ⟨List.any_eq_true.2 ⟨t, ht, by simp [hb', a2]⟩, ?_⟩
    rw [Bool.not_eq_true']
    exact List.all_eq_false.2 ⟨s, hs, by simp [hb, a1]⟩

/-- `std_match` with a generated pattern compares the bits of the mask. -/
theorem stdMatch_pattern (a m b : W) :
    stdMatch a (pattern m b) = true ↔ ∀ k, k < 32 → m.getLsbD k = true → a.getLsbD k = b.getLsbD k := by
  unfold stdMatch pattern
  rw [List.zip_map', List.all_map, List.all_reverse, List.all_eq_true]
  constructor
  · intro h k hk hm
    have := h k (List.mem_range.2 hk)
    simp only [Function.comp, hm] at this
    cases hb : b.getLsbD k <;> simp [hb] at this <;> rw [this]
  · intro h k hk
    have hk := List.mem_range.1 hk
    simp only [Function.comp]
    cases hm : m.getLsbD k with
    | false => simp
    | true =>
      have := h k hk hm
      cases hb : b.getLsbD k <;> simp [hb, this]

/-! ### Aligned ranges -/

/-- The addresses of a slave. -/
def _root_.Verif.Slave.has (s : Slave) (a : W) : Prop := s.base.toNat ≤ a.toNat ∧ a.toNat < s.base.toNat + 2 ^ s.width

/-- Same quotient, same range. -/
theorem has_iff {s : Slave} (h : s.base.toNat % 2 ^ s.width = 0) (a : W) : Slave.has s a ↔ a.toNat / 2 ^ s.width = s.base.toNat / 2 ^ s.width := by
  unfold Slave.has
  have hp : 0 < 2 ^ s.width := Nat.two_pow_pos _
  have h1 := Nat.div_add_mod s.base.toNat (2 ^ s.width)
  rw [h] at h1
  constructor
  · rintro ⟨g1, g2⟩
    apply Nat.div_eq_of_lt_le
    · rw [Nat.mul_comm]; omega
    · rw [Nat.mul_comm, Nat.mul_succ]; omega
  · intro e
    have h2 := Nat.div_add_mod a.toNat (2 ^ s.width)
    have h3 := Nat.mod_lt a.toNat hp
    rw [e] at h2
    omega

theorem bit_div (x w k : Nat) : (x / 2 ^ w).testBit k = x.testBit (w + k) := by
  rw [← Nat.shiftRight_eq_div_pow, Nat.testBit_shiftRight]

/-- The bits above the width are those of the base address. -/
theorem has_bits {s : Slave} (h : s.base.toNat % 2 ^ s.width = 0) {a : W} (ha : Slave.has s a) {k : Nat} (hk : s.width ≤ k) :
    a.getLsbD k = s.base.getLsbD k := by
  have e := (has_iff h a).1 ha
  have : k = s.width + (k - s.width) := by omega
  rw [BitVec.getLsbD, BitVec.getLsbD, this, ← bit_div, ← bit_div, e]

/-- Aligned ranges without a common address differ in a bit above both widths. -/
theorem differ {s t : Slave} (hs : s.base.toNat % 2 ^ s.width = 0) (ht : t.base.toNat % 2 ^ t.width = 0)
    (hd : ¬ Slave.has s t.base) (hd' : ¬ Slave.has t s.base) :
    ∃ k, k < 32 ∧ s.width ≤ k ∧ t.width ≤ k ∧ s.base.getLsbD k ≠ t.base.getLsbD k := by
  -- the wider one decides
  have key : ∀ x y : Slave, x.width ≤ y.width → y.base.toNat % 2 ^ y.width = 0 → ¬ Slave.has y x.base →
      ∃ k, k < 32 ∧ x.width ≤ k ∧ y.width ≤ k ∧ x.base.getLsbD k ≠ y.base.getLsbD k := by
    intro x y hw hy hn
    rw [has_iff hy] at hn
    obtain ⟨k, hk⟩ : ∃ k, (x.base.toNat / 2 ^ y.width).testBit k ≠ (y.base.toNat / 2 ^ y.width).testBit k :=
      Classical.byContradiction fun hc => hn (Nat.eq_of_testBit_eq fun k => Classical.byContradiction fun h => hc ⟨k, h⟩)
    rw [bit_div, bit_div] at hk
    refine ⟨y.width + k, ?_, by omega, by omega, hk⟩
    refine Classical.byContradiction fun hc => hk ?_
    have e1 := BitVec.getLsbD_of_ge x.base (y.width + k) (by omega)
    have e2 := BitVec.getLsbD_of_ge y.base (y.width + k) (by omega)
    rw [BitVec.getLsbD] at e1 e2
    rw [e1, e2]
  rcases Nat.le_total s.width t.width with h | h
  · exact key s t h ht hd'
  · obtain ⟨k, h1, h2, h3, h4⟩ := key t s h hs hd
    exact ⟨k, h1, h3, h2, fun e => h4 e.symm⟩

theorem findIdx?_first {α : Type} {p : α → Bool} {l : List α} {j : Nat} {x : α} (hj : l[j]? = some x) (hx : p x = true)
    (hlt : ∀ i, i < j → ∀ y, l[i]? = some y → p y = false) : l.findIdx? p = some j := by
  induction l generalizing j with
  | nil => simp at hj
  | cons y l ih =>
    cases j with
    | zero => simp only [List.getElem?_cons_zero, Option.some.injEq] at hj; subst hj; simp [List.findIdx?_cons, hx]
    | succ j =>
      have h0 := hlt 0 (by omega) y (by simp)
      rw [List.findIdx?_cons, if_neg (by simp [h0]), ih (j := j) (by simpa using hj) (fun i hi z hz => hlt (i + 1) (by omega) z (by simpa using hz))]
      rfl

/-- What holds of the slaves when the file is written. -/
structure Good (ss : List Slave) : Prop where
  aligned : ∀ s ∈ ss, s.base.toNat % 2 ^ s.width = 0
  apart : ∀ (i j : Nat) (s t : Slave), ss[i]? = some s → ss[j]? = some t → i ≠ j → ¬ Slave.has s t.base

/-- The first rule that matches an address in the range of slave `j` is rule `j`. -/
theorem findIdx_rule {ss : List Slave} (hg : Good ss) {j : Nat} {s : Slave} (hj : ss[j]? = some s) {a : W} (ha : Slave.has s a) :
    (ss.map fun s => pattern (addrMask ss &&& hiMask s.width) s.base).findIdx? (stdMatch a) = some j := by
  have hs := hg.aligned s (List.mem_of_getElem? hj)
  refine findIdx?_first (x := pattern (addrMask ss &&& hiMask s.width) s.base) (by rw [List.getElem?_map, hj]; rfl) ?_ ?_
  · rw [stdMatch_pattern]
    intro k hk hm
    simp only [BitVec.getLsbD_and, hiMask_bit, hk, decide_true, Bool.true_and, Bool.and_eq_true, Bool.not_eq_true', decide_eq_false_iff_not] at hm
    exact has_bits hs ha (by omega)
  · intro i hi y hy
    rw [List.getElem?_map, Option.map_eq_some_iff] at hy
    obtain ⟨t, ht, rfl⟩ := hy
    have hta := hg.aligned t (List.mem_of_getElem? ht)
    obtain ⟨k, k1, k2, k3, k4⟩ := differ hs hta (hg.apart j i s t hj ht (by omega)) (hg.apart i j t s ht hj (by omega))
    cases hm : stdMatch a (pattern (addrMask ss &&& hiMask t.width) t.base) with
    | false => rfl
    | true =>
      exfalso
      rw [stdMatch_pattern] at hm
      have := hm k k1 (by
        simp only [BitVec.getLsbD_and, hiMask_bit, k1, decide_true, Bool.true_and,
          addrMask_bit (List.mem_of_getElem? hj) (List.mem_of_getElem? ht) k1 k2 k3 k4]
        simp; omega)
      rw [has_bits hs ha k2] at this
      exact k4 this

end Decoder
end Verif
