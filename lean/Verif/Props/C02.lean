import Verif.Lemmas.Trb
/-!
# C02, C03 (arithmetic part), C04: masked accesses

The part of C03 about the client's state (a rejected write queues nothing, an accepted one queues exactly
one read-modify-write) is in `Verif.Props.C03`.
-/

set_option autoImplicit false

namespace Verif

/-- The masks for which the C++ code has defined behaviour: not zero and, unless the compiler lets signed
negation wrap, not `0x80000000`. -/
def MaskOK (wrapNeg : Bool) (m : W) : Prop := m ≠ 0#32 ∧ (wrapNeg = true ∨ m ≠ 0x80000000#32)

/-- For every admissible mask, the shift is the index of its least significant set bit. -/
theorem C02_lowest_bit (wrapNeg : Bool) (m : W) (hm : MaskOK wrapNeg m) :
    ∃ k, trb wrapNeg m = some k ∧ k < 32 ∧ m.getLsbD k = true ∧ ∀ j, j < k → m.getLsbD j = false := by
  obtain ⟨k, hk⟩ := exists_lowest m hm.1
  refine ⟨k, ?_, hk⟩
  unfold trb
  have : ¬ (wrapNeg = false ∧ m = 0x80000000#32) := by
    rintro ⟨h1, h2⟩; rcases hm.2 with h | h
    · rw [h] at h1; exact absurd h1 (by decide)
    · exact h h2
  rw [if_neg this, trbWrap_lowest hk]

example : MaskOK false 0x00F0#32 ∧ MaskOK true 0x80000000#32 := by
  refine ⟨⟨by decide, .inr (by decide)⟩, ⟨by decide, .inl rfl⟩⟩

/-- The shift is *the* position: no other number is the index of the lowest set bit. -/
theorem C02_unique (wrapNeg : Bool) (m : W) (k : Nat) (hm : MaskOK wrapNeg m)
    (hk : m.getLsbD k = true) (hlow : ∀ j, j < k → m.getLsbD j = false) : trb wrapNeg m = some k := by
  obtain ⟨k', h, h1, h2, h3⟩ := C02_lowest_bit wrapNeg m hm
  have : k = k' := lowest_unique (m := m) ⟨BitVec.lt_of_getLsbD hk, hk, hlow⟩ ⟨h1, h2, h3⟩
  rw [h, this]

/-- Shifting a value inside the mask right and left again by the shift loses nothing. -/
theorem C02_no_loss (wrapNeg : Bool) (m x : W) (hm : MaskOK wrapNeg m) (hx : x &&& ~~~m = 0#32) :
    ∃ k, trb wrapNeg m = some k ∧ (x >>> k) <<< k = x := by
  obtain ⟨k, h, h1, h2, h3⟩ := C02_lowest_bit wrapNeg m hm
  exact ⟨k, h, shr_shl_masked ⟨h1, h2, h3⟩ hx⟩

/-- A zero mask gives 32, and both users of the shift then run into an undefined shift. -/
theorem C02_zero_mask (wrapNeg : Bool) (source value : W) :
    trb wrapNeg 0#32 = some 32 ∧ maskedArg wrapNeg source 0#32 = .ub ∧ maskedValue wrapNeg value 0#32 = none := by
  have h : trb wrapNeg 0#32 = some 32 := by cases wrapNeg <;> decide
  refine ⟨h, ?_, ?_⟩
  · simp [maskedArg, h, shl]
  · simp [maskedValue, h, shr]

/-- The only other undefined case: the mask of the top bit alone, when signed negation may overflow. -/
theorem C02_top_bit_mask (m : W) : trb false m = none ↔ m = 0x80000000#32 := by
  unfold trb; split <;> simp_all

/-- C03: a masked write is accepted exactly when the value, moved to the field's position `k`, loses no
bit and sets no bit outside the mask. -/
theorem C03_accept_iff (wrapNeg : Bool) (source mask : W) (k : Nat) (hm : MaskOK wrapNeg mask)
    (hk : mask.getLsbD k = true) (hlow : ∀ j, j < k → mask.getLsbD j = false) :
    (∃ a o, maskedArg wrapNeg source mask = .rmw a o) ↔
      source.toNat * 2 ^ k < 2 ^ 32 ∧ ∀ i, source.getLsbD i = true → mask.getLsbD (k + i) = true := by
  have ht := C02_unique wrapNeg mask k hm hk hlow
  have hk32 : k < 32 := BitVec.lt_of_getLsbD hk
  unfold maskedArg
  simp only [ht, shl, shr, hk32, if_true]
  have hback : ((source <<< k) >>> k = source) ↔ source.toNat * 2 ^ k < 2 ^ 32 := by
    rw [← BitVec.toNat_inj, BitVec.toNat_ushiftRight, BitVec.toNat_shiftLeft, Nat.shiftLeft_eq,
      Nat.shiftRight_eq_div_pow]
    have hp : 0 < 2 ^ k := Nat.pow_pos (by decide)
    constructor
    · intro h
      apply Classical.byContradiction
      intro hge
      have hlt : source.toNat * 2 ^ k % 2 ^ 32 < source.toNat * 2 ^ k := by
        have := Nat.mod_lt (source.toNat * 2 ^ k) (y := 2 ^ 32) (by decide)
        omega
      have := (Nat.div_lt_iff_lt_mul hp).2 hlt
      omega
    · intro h
      rw [Nat.mod_eq_of_lt h, Nat.mul_div_cancel _ hp]
  have hover : ((source <<< k) &&& ~~~mask = 0#32) ↔
      ∀ i, k + i < 32 → source.getLsbD i = true → mask.getLsbD (k + i) = true := by
    constructor
    · intro h i hi hs
      have := congrArg (fun y => y.getLsbD (k + i)) h
      simp only [BitVec.getLsbD_and, BitVec.getLsbD_not, BitVec.getLsbD_shiftLeft, hi] at this
      have h1 : k + i - k = i := by omega
      have h2 : ¬ (k + i < k) := by omega
      simp only [h1, h2, hs] at this
      simpa using this
    · intro h
      apply BitVec.eq_of_getLsbD_eq
      intro j hj
      simp only [BitVec.getLsbD_and, BitVec.getLsbD_not, BitVec.getLsbD_shiftLeft, hj]
      by_cases hjk : j < k
      · simp [hjk]
      · have := h (j - k) (by omega)
        have e : k + (j - k) = j := by omega
        rw [e] at this
        cases hs : source.getLsbD (j - k) <;> simp [hjk]
        exact this hs
  have hfit : source.toNat * 2 ^ k < 2 ^ 32 → ∀ i, source.getLsbD i = true → k + i < 32 := by
    intro hlt i hi
    have h1 : 2 ^ i ≤ source.toNat := Nat.ge_two_pow_of_testBit (by simpa [BitVec.getLsbD] using hi)
    apply Classical.byContradiction
    intro hge
    have h2 : 2 ^ 32 ≤ 2 ^ (i + k) := Nat.pow_le_pow_right (by decide) (by omega)
    rw [Nat.pow_add] at h2
    have := Nat.mul_le_mul_right (2 ^ k) h1
    omega
  by_cases h1 : (source <<< k) >>> k = source
  · simp only [h1, ne_eq, not_true_eq_false, if_false]
    by_cases h2 : (source <<< k) &&& ~~~mask = 0#32
    · simp only [h2, not_true_eq_false, if_false]
      constructor
      · intro _
        refine ⟨hback.1 h1, fun i hi => hover.1 h2 i (hfit (hback.1 h1) i hi) hi⟩
      · intro _; exact ⟨_, _, rfl⟩
    · simp only [h2, not_false_eq_true, if_true]
      constructor
      · rintro ⟨_, _, h⟩; exact absurd h (by simp)
      · rintro ⟨_, h⟩; exact absurd (hover.2 (fun i _ hi => h i hi)) h2
  · simp only [ne_eq, h1, not_false_eq_true, if_true]
    constructor
    · rintro ⟨_, _, h⟩; exact absurd h (by simp)
    · rintro ⟨h, _⟩; exact absurd (hback.2 h) h1

example : maskedArg false 0x5#32 0xF0#32 = .rmw 0xFFFFFF0F#32 0x50#32 ∧
    maskedArg false 0x15#32 0xF0#32 = .forbidden ∧ maskedArg false 0x3#32 0x50#32 = .forbidden := by decide

/-- With an admissible mask the check is always defined: it accepts or throws. -/
theorem C03_defined (wrapNeg : Bool) (source mask : W) (hm : MaskOK wrapNeg mask) :
    maskedArg wrapNeg source mask ≠ .ub := by
  obtain ⟨k, ht, hk, _⟩ := C02_lowest_bit wrapNeg mask hm
  unfold maskedArg
  simp only [ht, shl, shr, hk, if_true]
  split <;> (try split) <;> simp

/-- The effect of an accepted masked write on any register content `r`: every masked bit becomes the
corresponding bit of the value (bit `i` of the register is bit `i - k` of the value), every other bit is
unchanged. The target computes `(r & AND) | OR`. -/
theorem C03_effect (wrapNeg : Bool) (source mask r : W) (k : Nat) (a o : W) (hm : MaskOK wrapNeg mask)
    (hk : mask.getLsbD k = true) (hlow : ∀ j, j < k → mask.getLsbD j = false)
    (hacc : maskedArg wrapNeg source mask = .rmw a o) (i : Nat) (hi : i < 32) :
    ((r &&& a) ||| o).getLsbD i =
      if mask.getLsbD i then (decide (k ≤ i) && source.getLsbD (i - k)) else r.getLsbD i := by
  have ht := C02_unique wrapNeg mask k hm hk hlow
  have hk32 : k < 32 := BitVec.lt_of_getLsbD hk
  unfold maskedArg at hacc
  simp only [ht, shl, shr, hk32, if_true] at hacc
  split at hacc
  · exact absurd hacc (by simp)
  · split at hacc
    · exact absurd hacc (by simp)
    · simp only [MaskedArg.rmw.injEq] at hacc
      obtain ⟨rfl, rfl⟩ := hacc
      simp only [BitVec.getLsbD_or, BitVec.getLsbD_and, BitVec.getLsbD_not, BitVec.getLsbD_shiftLeft, hi]
      cases hmi : mask.getLsbD i
      · simp
      · by_cases h : i < k
        · have : ¬ k ≤ i := by omega
          simp [h, this]
        · have : k ≤ i := by omega
          simp [h, this]

/-- C04: after an accepted masked write, reading through the same mask gives the written value. -/
theorem C04_roundtrip (wrapNeg : Bool) (source mask r a o : W) (hm : MaskOK wrapNeg mask)
    (hacc : maskedArg wrapNeg source mask = .rmw a o) :
    maskedValue wrapNeg ((r &&& a) ||| o) mask = some source := by
  obtain ⟨k, ht, hk32, hk, hlow⟩ := C02_lowest_bit wrapNeg mask hm
  have heff := C03_effect wrapNeg source mask r k a o hm hk hlow hacc
  have hfits := (C03_accept_iff wrapNeg source mask k hm hk hlow).1 ⟨a, o, hacc⟩
  unfold maskedValue
  simp only [ht, shr, hk32, if_true, Option.some.injEq]
  apply BitVec.eq_of_getLsbD_eq
  intro i hi
  rw [BitVec.getLsbD_ushiftRight, BitVec.getLsbD_and]
  by_cases hki : k + i < 32
  · rw [heff (k + i) hki]
    have e : k + i - k = i := by omega
    cases hmi : mask.getLsbD (k + i)
    · simp only [Bool.and_false]
      cases hs : source.getLsbD i
      · rfl
      · have := hfits.2 i hs; rw [hmi] at this; exact absurd this (by decide)
    · simp [e]
  · have hm0 : mask.getLsbD (k + i) = false := BitVec.getLsbD_of_ge _ _ (by omega)
    rw [hm0, Bool.and_false]
    cases hs : source.getLsbD i
    · rfl
    · have := hfits.2 i hs; rw [hm0] at this; exact absurd this (by decide)

/-- C04: a masked read with a disjoint mask is not affected by the write. -/
theorem C04_disjoint (wrapNeg : Bool) (source mask other r a o : W) (hm : MaskOK wrapNeg mask)
    (hacc : maskedArg wrapNeg source mask = .rmw a o) (hdis : mask &&& other = 0#32) :
    maskedValue wrapNeg ((r &&& a) ||| o) other = maskedValue wrapNeg r other := by
  obtain ⟨k, ht, hk32, hk, hlow⟩ := C02_lowest_bit wrapNeg mask hm
  have heff := C03_effect wrapNeg source mask r k a o hm hk hlow hacc
  have : ((r &&& a) ||| o) &&& other = r &&& other := by
    apply BitVec.eq_of_getLsbD_eq
    intro i hi
    rw [BitVec.getLsbD_and, BitVec.getLsbD_and, heff i hi]
    have := congrArg (fun y => y.getLsbD i) hdis
    simp only [BitVec.getLsbD_and] at this
    cases hmi : mask.getLsbD i <;> cases hoi : other.getLsbD i <;> simp_all
  unfold maskedValue
  rw [this]

example : maskedArg false 0x5#32 0xF0#32 = .rmw 0xFFFFFF0F#32 0x50#32 ∧ 0xF0#32 &&& 0x0F#32 = 0#32 := by decide

end Verif
