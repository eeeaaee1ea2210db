import Verif.Model.Bits
import Verif.Lemmas.Bits
/-! Lemmas about the lowest set bit and masked accesses. -/

set_option autoImplicit false

namespace Verif

/-- `k` is the position of the least significant set bit of `m` (specification). -/
def LowestSet (m : W) (k : Nat) : Prop :=
  k < 32 ∧ m.getLsbD k = true ∧ ∀ j, j < k → m.getLsbD j = false

theorem exists_lowest (m : W) (hm : m ≠ 0) : ∃ k, LowestSet m k := by
  have hex : ∃ k, m.getLsbD k = true := by
    apply Classical.byContradiction
    intro hno
    apply hm
    apply BitVec.eq_of_getLsbD_eq
    intro i _
    cases h : m.getLsbD i with
    | false => simp
    | true => exact absurd ⟨i, h⟩ hno
  obtain ⟨k, hk⟩ := hex
  induction k using Nat.strongRecOn with
  | _ k ih =>
    by_cases h : ∃ j, j < k ∧ m.getLsbD j = true
    · obtain ⟨j, hj, hb⟩ := h; exact ih j hj hb
    · refine ⟨k, ?_, hk, ?_⟩
      · exact BitVec.lt_of_getLsbD hk
      · intro j hj
        cases hb : m.getLsbD j with
        | false => rfl
        | true => exact absurd ⟨j, hj, hb⟩ h

theorem and_neg_lowest {m : W} {k : Nat} (h : LowestSet m k) : m &&& (-m) = BitVec.twoPow 32 k := by
  obtain ⟨hk, hbit, hlow⟩ := h
  apply BitVec.eq_of_getLsbD_eq
  intro i hi
  rw [BitVec.getLsbD_and, BitVec.getLsbD_neg, BitVec.getLsbD_twoPow]
  by_cases h1 : i < k
  · have : i ≠ k := by omega
    simp [hlow i h1]; omega
  · by_cases h2 : i = k
    · subst h2
      have : ¬ ∃ j, j < i ∧ m.getLsbD j = true := by
        rintro ⟨j, hj, hb⟩; rw [hlow j hj] at hb; exact absurd hb (by decide)
      simp only [this, hbit, hi]; simp
    · have : ∃ j, j < i ∧ m.getLsbD j = true := ⟨k, by omega, hbit⟩
      simp only [this]
      have hne : k ≠ i := by omega
      cases m.getLsbD i <;> simp [hne, hi]

theorem trbWrap_lowest {m : W} {k : Nat} (h : LowestSet m k) : trbWrap m = k := by
  unfold trbWrap
  rw [and_neg_lowest h]
  have hk := h.1
  clear h
  have : ∀ k : Fin 32, (
    let x := BitVec.twoPow 32 k.1
    let r := 32
    let r := if x ≠ 0#32 then r - 1 else r
    let r := if x &&& 0x0000FFFF#32 ≠ 0#32 then r - 16 else r
    let r := if x &&& 0x00FF00FF#32 ≠ 0#32 then r - 8 else r
    let r := if x &&& 0x0F0F0F0F#32 ≠ 0#32 then r - 4 else r
    let r := if x &&& 0x33333333#32 ≠ 0#32 then r - 2 else r
    let r := if x &&& 0x55555555#32 ≠ 0#32 then r - 1 else r
    r) = k.1 := by decide +kernel
  exact this ⟨k, hk⟩

theorem lowest_unique {m : W} {k k' : Nat} (h : LowestSet m k) (h' : LowestSet m k') : k = k' := by
  rw [← trbWrap_lowest h, ← trbWrap_lowest h']

theorem shr_shl_masked {m x : W} {k : Nat} (h : LowestSet m k) (hx : x &&& ~~~m = 0#32) :
    (x >>> k) <<< k = x := by
  apply BitVec.eq_of_getLsbD_eq
  intro i hi
  rw [BitVec.getLsbD_shiftLeft, BitVec.getLsbD_ushiftRight]
  by_cases h1 : i < k
  · have : x.getLsbD i = false := by
      have := congrArg (fun y => y.getLsbD i) hx
      simp only [BitVec.getLsbD_and, BitVec.getLsbD_not, hi, h.2.2 i h1] at this
      simpa using this
    simp [h1, this]
  · have : k + (i - k) = i := by omega
    simp [h1, this, hi]

end Verif
