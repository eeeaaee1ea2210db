import Verif.Model.Header
/-! Elementary facts relating the bit operations of the code to arithmetic. -/

set_option autoImplicit false

namespace Verif

theorem toNat_and_mask (x : W) (k : Nat) (hk : k ≤ 32) :
    (x &&& BitVec.ofNat 32 (2 ^ k - 1)).toNat = x.toNat % 2 ^ k := by
  have h : 2 ^ k - 1 < 2 ^ 32 := by
    have : 2 ^ k ≤ 2 ^ 32 := Nat.pow_le_pow_right (by decide) hk
    have : 0 < 2 ^ k := Nat.pow_pos (by decide)
    omega
  rw [BitVec.toNat_and, BitVec.toNat_ofNat, Nat.mod_eq_of_lt h, Nat.and_two_pow_sub_one_eq_mod]

/-- `(h >> s) & (2^k - 1)` is the field of `k` bits at bit `s`. -/
theorem toNat_field (x : W) (s k : Nat) (hk : k ≤ 32) :
    ((x >>> s) &&& BitVec.ofNat 32 (2 ^ k - 1)).toNat = x.toNat / 2 ^ s % 2 ^ k := by
  rw [toNat_and_mask _ _ hk, BitVec.toNat_ushiftRight, Nat.shiftRight_eq_div_pow]

/-- Or of a multiple of `2^k` with something below `2^k` is a sum. -/
theorem nat_or_add {a b k : Nat} (hb : b < 2 ^ k) : (a * 2 ^ k) ||| b = a * 2 ^ k + b := by
  rw [Nat.mul_comm]; exact (Nat.two_pow_add_eq_or_of_lt hb a).symm

/-- `x & (((1<<k)-1) << s)` in arithmetic. -/
theorem nat_and_shifted (x s k : Nat) :
    x &&& ((2 ^ k - 1) * 2 ^ s) = (x / 2 ^ s % 2 ^ k) * 2 ^ s := by
  apply Nat.eq_of_testBit_eq
  intro i
  rw [Nat.testBit_and, Nat.testBit_mul_two_pow, Nat.testBit_mul_two_pow]
  by_cases h : s ≤ i
  · simp only [h, decide_true, Bool.true_and, Nat.testBit_mod_two_pow,
      Nat.testBit_two_pow_sub_one, Nat.testBit_div_two_pow]
    have : i - s + s = i := by omega
    rw [this, Bool.and_comm]
  · simp [h]

theorem toNat_andF8 (h : W) : (h &&& 0xF8#32).toNat = (h.toNat / 8 % 32) * 8 := by
  have := nat_and_shifted h.toNat 3 5
  simpa [BitVec.toNat_and] using this

theorem toNat_andF0 (h : W) : (h &&& 0xF0#32).toNat = (h.toNat / 16 % 16) * 16 := by
  have := nat_and_shifted h.toNat 4 4
  simpa [BitVec.toNat_and] using this

theorem toNat_andFC (h : W) : (h &&& 0xFFFFFFFC#32).toNat = (h.toNat / 4) * 4 := by
  have := nat_and_shifted h.toNat 2 30
  have h1 : h.toNat / 4 % 2 ^ 30 = h.toNat / 4 := by
    apply Nat.mod_eq_of_lt; have := h.isLt; omega
  simp only [BitVec.toNat_and]
  simpa [h1] using this

/-- The value of an IPbus 1.3 header as a sum of its fields. -/
theorem calcHeader1_toNat {ty : Ty} {wc id : W} {info : BitVec 8} {h : W}
    (hc : calcHeader1 ty wc id info = some h) :
    ∃ t : BitVec 8, typeCode1 ty = some t ∧ t.toNat % 8 = 0 ∧
      h.toNat = 2 ^ 28 + (id.toNat % 2 ^ 11) * 2 ^ 17 + (wc.toNat % 2 ^ 9) * 2 ^ 8 + t.toNat + info.toNat % 8 := by
  unfold calcHeader1 at hc
  match ht : typeCode1 ty, hc with
  | some t, hc =>
    simp only [Option.map_some, Option.some.injEq] at hc
    have ht8 : t.toNat % 8 = 0 ∧ t.toNat < 256 := by
      refine ⟨?_, t.isLt⟩
      cases ty <;> simp [typeCode1] at ht <;> subst ht <;> rfl
    refine ⟨t, rfl, ht8.1, ?_⟩
    subst hc
    have hid := toNat_and_mask id 11 (by decide)
    have hwc := toNat_and_mask wc 9 (by decide)
    have hinf : (info &&& 7#8).toNat = info.toNat % 8 := by
      rw [BitVec.toNat_and]; exact Nat.and_two_pow_sub_one_eq_mod info.toNat 3
    have hidlt := Nat.mod_lt id.toNat (y := 2 ^ 11) (by decide)
    have hwclt := Nat.mod_lt wc.toNat (y := 2 ^ 9) (by decide)
    have e1 : ((id &&& 2047#32) <<< 17).toNat = (id.toNat % 2 ^ 11) * 2 ^ 17 := by
      rw [BitVec.toNat_shiftLeft, Nat.shiftLeft_eq]
      have : (id &&& 2047#32).toNat = id.toNat % 2 ^ 11 := hid
      rw [this]; apply Nat.mod_eq_of_lt; omega
    have e2 : ((wc &&& 511#32) <<< 8).toNat = (wc.toNat % 2 ^ 9) * 2 ^ 8 := by
      rw [BitVec.toNat_shiftLeft, Nat.shiftLeft_eq]
      have : (wc &&& 511#32).toNat = wc.toNat % 2 ^ 9 := hwc
      rw [this]; apply Nat.mod_eq_of_lt; omega
    have e3 : (t.setWidth 32).toNat = t.toNat := by
      rw [BitVec.toNat_setWidth]; apply Nat.mod_eq_of_lt; omega
    have e4 : ((info &&& 7#8).setWidth 32).toNat = info.toNat % 8 := by
      rw [BitVec.toNat_setWidth, hinf]; apply Nat.mod_eq_of_lt; omega
    simp only [BitVec.toNat_or, e1, e2, e3, e4]
    generalize id.toNat % 2 ^ 11 = a at *
    generalize wc.toNat % 2 ^ 9 = b at *
    have s1 : (268435456#32).toNat ||| a * 2 ^ 17 = 2 ^ 28 + a * 2 ^ 17 := by
      have := nat_or_add (a := 1) (b := a * 2 ^ 17) (k := 28) (by omega)
      simpa using this
    rw [s1]
    have s2 : (2 ^ 28 + a * 2 ^ 17) ||| b * 2 ^ 8 = 2 ^ 28 + a * 2 ^ 17 + b * 2 ^ 8 := by
      have := nat_or_add (a := 2 ^ 11 + a) (b := b * 2 ^ 8) (k := 17) (by omega)
      rw [Nat.add_mul] at this; exact this
    rw [s2]
    have s3 : (2 ^ 28 + a * 2 ^ 17 + b * 2 ^ 8) ||| t.toNat = 2 ^ 28 + a * 2 ^ 17 + b * 2 ^ 8 + t.toNat := by
      have := nat_or_add (a := 2 ^ 20 + a * 2 ^ 9 + b) (b := t.toNat) (k := 8) (by omega)
      have e : (2 ^ 20 + a * 2 ^ 9 + b) * 2 ^ 8 = 2 ^ 28 + a * 2 ^ 17 + b * 2 ^ 8 := by omega
      rw [e] at this; exact this
    rw [s3]
    have := nat_or_add (a := (2 ^ 28 + a * 2 ^ 17 + b * 2 ^ 8 + t.toNat) / 8) (b := info.toNat % 8) (k := 3) (by omega)
    have e : (2 ^ 28 + a * 2 ^ 17 + b * 2 ^ 8 + t.toNat) / 8 * 2 ^ 3 = 2 ^ 28 + a * 2 ^ 17 + b * 2 ^ 8 + t.toNat := by omega
    rw [e] at this; exact this

/-- The value of an IPbus 2.0 header as a sum of its fields. -/
theorem calcHeader2_toNat {ty : Ty} {wc id : W} {info : BitVec 8} {h : W}
    (hc : calcHeader2 ty wc id info = some h) :
    ∃ t : BitVec 8, typeCode2 ty = some t ∧ t.toNat % 16 = 0 ∧
      h.toNat = 2 ^ 29 + (id.toNat % 2 ^ 12) * 2 ^ 16 + (wc.toNat % 2 ^ 8) * 2 ^ 8 + t.toNat + info.toNat % 16 := by
  unfold calcHeader2 at hc
  match ht : typeCode2 ty, hc with
  | some t, hc =>
    simp only [Option.map_some, Option.some.injEq] at hc
    have ht8 : t.toNat % 16 = 0 ∧ t.toNat < 256 := by
      refine ⟨?_, t.isLt⟩
      cases ty <;> simp [typeCode2] at ht <;> subst ht <;> rfl
    refine ⟨t, rfl, ht8.1, ?_⟩
    subst hc
    have hid := toNat_and_mask id 12 (by decide)
    have hwc := toNat_and_mask wc 8 (by decide)
    have hinf : (info &&& 15#8).toNat = info.toNat % 16 := by
      rw [BitVec.toNat_and]; exact Nat.and_two_pow_sub_one_eq_mod info.toNat 4
    have hidlt := Nat.mod_lt id.toNat (y := 2 ^ 12) (by decide)
    have hwclt := Nat.mod_lt wc.toNat (y := 2 ^ 8) (by decide)
    have e1 : ((id &&& 4095#32) <<< 16).toNat = (id.toNat % 2 ^ 12) * 2 ^ 16 := by
      rw [BitVec.toNat_shiftLeft, Nat.shiftLeft_eq]
      have : (id &&& 4095#32).toNat = id.toNat % 2 ^ 12 := hid
      rw [this]; apply Nat.mod_eq_of_lt; omega
    have e2 : ((wc &&& 255#32) <<< 8).toNat = (wc.toNat % 2 ^ 8) * 2 ^ 8 := by
      rw [BitVec.toNat_shiftLeft, Nat.shiftLeft_eq]
      have : (wc &&& 255#32).toNat = wc.toNat % 2 ^ 8 := hwc
      rw [this]; apply Nat.mod_eq_of_lt; omega
    have e3 : (t.setWidth 32).toNat = t.toNat := by
      rw [BitVec.toNat_setWidth]; apply Nat.mod_eq_of_lt; omega
    have e4 : ((info &&& 15#8).setWidth 32).toNat = info.toNat % 16 := by
      rw [BitVec.toNat_setWidth, hinf]; apply Nat.mod_eq_of_lt; omega
    simp only [BitVec.toNat_or, e1, e2, e3, e4]
    generalize id.toNat % 2 ^ 12 = a at *
    generalize wc.toNat % 2 ^ 8 = b at *
    have s1 : (536870912#32).toNat ||| a * 2 ^ 16 = 2 ^ 29 + a * 2 ^ 16 := by
      have := nat_or_add (a := 1) (b := a * 2 ^ 16) (k := 29) (by omega)
      simpa using this
    rw [s1]
    have s2 : (2 ^ 29 + a * 2 ^ 16) ||| b * 2 ^ 8 = 2 ^ 29 + a * 2 ^ 16 + b * 2 ^ 8 := by
      have := nat_or_add (a := 2 ^ 13 + a) (b := b * 2 ^ 8) (k := 16) (by omega)
      rw [Nat.add_mul] at this; exact this
    rw [s2]
    have s3 : (2 ^ 29 + a * 2 ^ 16 + b * 2 ^ 8) ||| t.toNat = 2 ^ 29 + a * 2 ^ 16 + b * 2 ^ 8 + t.toNat := by
      have := nat_or_add (a := 2 ^ 21 + a * 2 ^ 8 + b) (b := t.toNat) (k := 8) (by omega)
      have e : (2 ^ 21 + a * 2 ^ 8 + b) * 2 ^ 8 = 2 ^ 29 + a * 2 ^ 16 + b * 2 ^ 8 := by omega
      rw [e] at this; exact this
    rw [s3]
    have := nat_or_add (a := (2 ^ 29 + a * 2 ^ 16 + b * 2 ^ 8 + t.toNat) / 16) (b := info.toNat % 16) (k := 4) (by omega)
    have e : (2 ^ 29 + a * 2 ^ 16 + b * 2 ^ 8 + t.toNat) / 16 * 2 ^ 4 = 2 ^ 29 + a * 2 ^ 16 + b * 2 ^ 8 + t.toNat := by omega
    rw [e] at this; exact this

end Verif
