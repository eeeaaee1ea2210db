import Verif.Lemmas.Bits
import Verif.Spec.Header
/-! Lemmas about the header codec. -/

set_option autoImplicit false

namespace Verif
open Spec

theorem toNat_ver (h : W) : ((h >>> 28) &&& 0xF#32).toNat = field h 28 4 :=
  toNat_field h 28 4 (by decide)

theorem ver_ne_iff (h : W) (n : Nat) (hn : n < 16) :
    ((h >>> 28) &&& 0xF#32 = BitVec.ofNat 32 n) ↔ field h 28 4 = n := by
  rw [← toNat_ver, ← BitVec.toNat_inj, BitVec.toNat_ofNat, Nat.mod_eq_of_lt (by omega)]

theorem decodeType1_iff (h : W) (ty : Ty) :
    decodeType1 h = some ty ↔ wireCode .v1 ty = some (field h 3 5) := by
  have hF : (h &&& 0xF8#32).toNat = field h 3 5 * 8 := toNat_andF8 h
  have hlt : field h 3 5 < 32 := Nat.mod_lt _ (by decide)
  have e : h &&& 0xF8#32 = BitVec.ofNat 32 (field h 3 5 * 8) := by
    apply BitVec.eq_of_toNat_eq; rw [hF, BitVec.toNat_ofNat, Nat.mod_eq_of_lt (by omega)]
  unfold decodeType1
  rw [e]
  generalize field h 3 5 = x at hlt
  clear hF e h
  revert x ty
  have : ∀ ty : Ty, ∀ x : Fin 32, (let c := BitVec.ofNat 32 (x.1 * 8);
      if c = 0xF8#32 then some Ty.bot
      else if c = 0x18#32 then some .read
      else if c = 0x20#32 then some .write
      else if c = 0x28#32 then some .rmwBits
      else if c = 0x30#32 then some .rmwSum
      else if c = 0xF0#32 then some .rai
      else if c = 0x40#32 then some .niRead
      else if c = 0x48#32 then some .niWrite
      else none) = some ty ↔ wireCode .v1 ty = some x.1 := by
    intro ty; cases ty <;> decide +kernel
  intro ty x hx
  exact this ty ⟨x, hx⟩

theorem decodeType2_iff (h : W) (ty : Ty) :
    decodeType2 h = some ty ↔ wireCode .v2 ty = some (field h 4 4) := by
  have hF : (h &&& 0xF0#32).toNat = field h 4 4 * 16 := toNat_andF0 h
  have hlt : field h 4 4 < 16 := Nat.mod_lt _ (by decide)
  have e : h &&& 0xF0#32 = BitVec.ofNat 32 (field h 4 4 * 16) := by
    apply BitVec.eq_of_toNat_eq; rw [hF, BitVec.toNat_ofNat, Nat.mod_eq_of_lt (by omega)]
  unfold decodeType2
  rw [e]
  generalize field h 4 4 = x at hlt
  clear hF e h
  revert x ty
  have : ∀ ty : Ty, ∀ x : Fin 16, (let c := BitVec.ofNat 32 (x.1 * 16);
      if c = 0x00#32 then some Ty.read
      else if c = 0x10#32 then some .write
      else if c = 0x20#32 then some .niRead
      else if c = 0x30#32 then some .niWrite
      else if c = 0x40#32 then some .rmwBits
      else if c = 0x50#32 then some .rmwSum
      else if c = 0x60#32 then some .configRead
      else none) = some ty ↔ wireCode .v2 ty = some x.1 := by
    intro ty; cases ty <;> decide +kernel
  intro ty x hx
  exact this ty ⟨x, hx⟩

/-- Complete characterisation of the decoder, v1. -/
theorem extractHeader1_iff (h : W) (d : Hdr) :
    extractHeader1 h = some d ↔
      field h 28 4 = 1 ∧ wireCode .v1 d.ty = some (field h 3 5) ∧
      d.wc.toNat = field h 8 9 ∧ d.id.toNat = field h 17 11 ∧ d.info.toNat = field h 0 2 := by
  have hwc : ((h >>> 8) &&& 0x1ff#32).toNat = field h 8 9 := toNat_field h 8 9 (by decide)
  have hid : ((h >>> 17) &&& 0x7ff#32).toNat = field h 17 11 := toNat_field h 17 11 (by decide)
  have hin : ((h &&& 0x3#32).setWidth 8).toNat = field h 0 2 := by
    have := toNat_and_mask h 2 (by decide)
    rw [BitVec.toNat_setWidth]
    simp only [field] at *
    have h3 : (h &&& 3#32).toNat = h.toNat % 4 := this
    rw [h3]; omega
  unfold extractHeader1
  have hv := ver_ne_iff h 1 (by decide)
  by_cases hver : field h 28 4 = 1
  · have : ¬ ((h >>> 28) &&& 0xF#32 ≠ 1#32) := by
      simp only [ne_eq, Decidable.not_not]; exact hv.2 hver
    rw [if_neg this, Option.map_eq_some_iff]
    constructor
    · rintro ⟨ty, hty, rfl⟩
      exact ⟨hver, (decodeType1_iff h ty).1 hty, hwc, hid, hin⟩
    · rintro ⟨-, hty, h1, h2, h3⟩
      refine ⟨d.ty, (decodeType1_iff h d.ty).2 hty, ?_⟩
      cases d
      simp only [Hdr.mk.injEq, true_and]
      exact ⟨BitVec.eq_of_toNat_eq (by simp_all), BitVec.eq_of_toNat_eq (by simp_all),
        BitVec.eq_of_toNat_eq (by simp_all)⟩
  · have : ((h >>> 28) &&& 0xF#32 ≠ 1#32) := fun hc => hver (hv.1 hc)
    rw [if_pos this]
    simp [hver]

/-- Complete characterisation of the decoder, v2. -/
theorem extractHeader2_iff (h : W) (d : Hdr) :
    extractHeader2 h = some d ↔
      field h 28 4 = 2 ∧ wireCode .v2 d.ty = some (field h 4 4) ∧
      d.wc.toNat = field h 8 8 ∧ d.id.toNat = field h 16 12 ∧ d.info.toNat = field h 0 4 := by
  have hwc : ((h >>> 8) &&& 0xff#32).toNat = field h 8 8 := toNat_field h 8 8 (by decide)
  have hid : ((h >>> 16) &&& 0xfff#32).toNat = field h 16 12 := toNat_field h 16 12 (by decide)
  have hin : ((h &&& 0xf#32).setWidth 8).toNat = field h 0 4 := by
    have := toNat_and_mask h 4 (by decide)
    rw [BitVec.toNat_setWidth]
    simp only [field] at *
    have h3 : (h &&& 15#32).toNat = h.toNat % 16 := this
    rw [h3]; omega
  unfold extractHeader2
  have hv := ver_ne_iff h 2 (by decide)
  by_cases hver : field h 28 4 = 2
  · have : ¬ ((h >>> 28) &&& 0xF#32 ≠ 2#32) := by
      simp only [ne_eq, Decidable.not_not]; exact hv.2 hver
    rw [if_neg this, Option.map_eq_some_iff]
    constructor
    · rintro ⟨ty, hty, rfl⟩
      exact ⟨hver, (decodeType2_iff h ty).1 hty, hwc, hid, hin⟩
    · rintro ⟨-, hty, h1, h2, h3⟩
      refine ⟨d.ty, (decodeType2_iff h d.ty).2 hty, ?_⟩
      cases d
      simp only [Hdr.mk.injEq, true_and]
      exact ⟨BitVec.eq_of_toNat_eq (by simp_all), BitVec.eq_of_toNat_eq (by simp_all),
        BitVec.eq_of_toNat_eq (by simp_all)⟩
  · have : ((h >>> 28) &&& 0xF#32 ≠ 2#32) := fun hc => hver (hv.1 hc)
    rw [if_pos this]
    simp [hver]

theorem typeCode1_wire {ty t} (h : typeCode1 ty = some t) :
    wireCode .v1 ty = some (t.toNat / 8) := by
  cases ty <;> simp [typeCode1] at h <;> subst h <;> rfl

theorem typeCode2_wire {ty t} (h : typeCode2 ty = some t) :
    wireCode .v2 ty = some (t.toNat / 16) := by
  cases ty <;> simp [typeCode2] at h <;> subst h <;> rfl

/-- The encoder writes every field at its place. -/
theorem calcHeader_fields {v : Ver} {ty wc id info h} (hc : calcHeader v ty wc id info = some h) :
    field h 28 4 = verNibble v ∧ wireCode v ty = some (field h (tyLow v) (8 - tyLow v)) ∧
    field h 8 (wcBits v) = wc.toNat % 2 ^ wcBits v ∧
    field h (28 - idBits v) (idBits v) = id.toNat % 2 ^ idBits v ∧
    field h 0 (tyLow v) = info.toNat % 2 ^ tyLow v := by
  cases v
  · obtain ⟨t, ht, h8, e⟩ := calcHeader1_toNat hc
    have h256 := t.isLt
    have hidlt := Nat.mod_lt id.toNat (y := 2 ^ 11) (by decide)
    have hwclt := Nat.mod_lt wc.toNat (y := 2 ^ 9) (by decide)
    simp only [verNibble, wcBits, idBits, tyLow, typeCode1_wire ht, Option.some.injEq, field]
    generalize id.toNat % 2 ^ 11 = a at *
    generalize wc.toNat % 2 ^ 9 = b at *
    refine ⟨?_, ?_, ?_, ?_, ?_⟩ <;> omega
  · obtain ⟨t, ht, h8, e⟩ := calcHeader2_toNat hc
    have h256 := t.isLt
    have hidlt := Nat.mod_lt id.toNat (y := 2 ^ 12) (by decide)
    have hwclt := Nat.mod_lt wc.toNat (y := 2 ^ 8) (by decide)
    simp only [verNibble, wcBits, idBits, tyLow, typeCode2_wire ht, Option.some.injEq, field]
    generalize id.toNat % 2 ^ 12 = a at *
    generalize wc.toNat % 2 ^ 8 = b at *
    refine ⟨?_, ?_, ?_, ?_, ?_⟩ <;> omega

theorem extractHeader_iff (v : Ver) (h : W) (d : Hdr) :
    extractHeader v h = some d ↔
      field h 28 4 = verNibble v ∧ wireCode v d.ty = some (field h (tyLow v) (8 - tyLow v)) ∧
      d.wc.toNat = field h 8 (wcBits v) ∧ d.id.toNat = field h (28 - idBits v) (idBits v) ∧
      d.info.toNat = field h 0 (infoBits v) := by
  cases v
  · exact extractHeader1_iff h d
  · exact extractHeader2_iff h d

theorem calcHeader_extract {v : Ver} {ty wc id info h} (hc : calcHeader v ty wc id info = some h) :
    extractHeader v h = some
      { ty, wc := BitVec.ofNat 32 (wc.toNat % 2 ^ wcBits v), id := BitVec.ofNat 32 (id.toNat % 2 ^ idBits v),
        info := BitVec.ofNat 8 (info.toNat % 2 ^ infoBits v) } := by
  obtain ⟨h1, h2, h3, h4, h5⟩ := calcHeader_fields hc
  rw [extractHeader_iff]
  refine ⟨h1, h2, ?_, ?_, ?_⟩
  · rw [h3, BitVec.toNat_ofNat]; apply Nat.mod_eq_of_lt
    have := Nat.mod_lt wc.toNat (y := 2 ^ wcBits v) (Nat.pow_pos (by decide))
    cases v <;> simp only [wcBits] at * <;> omega
  · rw [h4, BitVec.toNat_ofNat]; apply Nat.mod_eq_of_lt
    have := Nat.mod_lt id.toNat (y := 2 ^ idBits v) (Nat.pow_pos (by decide))
    cases v <;> simp only [idBits] at * <;> omega
  · simp only [BitVec.toNat_ofNat, field] at *
    cases v <;> simp only [infoBits, tyLow] at * <;> omega

theorem calcHeader_none_iff (v : Ver) (ty wc id info) :
    calcHeader v ty wc id info = none ↔ ¬ supported v ty := by
  cases v <;> cases ty <;> simp [calcHeader, calcHeader1, calcHeader2, typeCode1, typeCode2, supported]

end Verif
