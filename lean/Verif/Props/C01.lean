import Verif.Lemmas.Header
/-!
# C01: transaction headers survive the wire
-/

set_option autoImplicit false

namespace Verif
open Spec

/-- Round trip: whatever the encoder accepts, the decoder of the same version returns the type encoded
and word count and id truncated to their fields (info truncated to the bits the decoder looks at). -/
theorem C01_roundtrip (v : Ver) (ty : Ty) (wc id : W) (info : BitVec 8) (h : W)
    (hc : calcHeader v ty wc id info = some h) :
    ∃ d, extractHeader v h = some d ∧ d.ty = ty ∧ d.wc.toNat = wc.toNat % 2 ^ wcBits v ∧
      d.id.toNat = id.toNat % 2 ^ idBits v ∧ d.info.toNat = info.toNat % 2 ^ infoBits v := by
  refine ⟨_, calcHeader_extract hc, rfl, ?_, ?_, ?_⟩ <;>
    (simp only [BitVec.toNat_ofNat]; apply Nat.mod_eq_of_lt)
  · have := Nat.mod_lt wc.toNat (y := 2 ^ wcBits v) (Nat.pow_pos (by decide))
    cases v <;> simp only [wcBits] at * <;> omega
  · have := Nat.mod_lt id.toNat (y := 2 ^ idBits v) (Nat.pow_pos (by decide))
    cases v <;> simp only [idBits] at * <;> omega
  · have := Nat.mod_lt info.toNat (y := 2 ^ infoBits v) (Nat.pow_pos (by decide))
    cases v <;> simp only [infoBits] at * <;> omega

example : ∃ h, calcHeader .v1 .rmwBits 0x3ff 0xfff 5 = some h := ⟨_, rfl⟩
example : ∃ h, calcHeader .v2 .configRead 0x1ff 0x1fff 0xF = some h := ⟨_, rfl⟩

/-- Wire layout: every field of an encoded header sits at the position given by the protocol. -/
theorem C01_layout (v : Ver) (ty : Ty) (wc id : W) (info : BitVec 8) (h : W)
    (hc : calcHeader v ty wc id info = some h) :
    field h 28 4 = verNibble v ∧ wireCode v ty = some (field h (tyLow v) (8 - tyLow v)) ∧
    field h 8 (wcBits v) = wc.toNat % 2 ^ wcBits v ∧
    field h (28 - idBits v) (idBits v) = id.toNat % 2 ^ idBits v ∧
    field h 0 (tyLow v) = info.toNat % 2 ^ tyLow v :=
  calcHeader_fields hc

/-- Two requests with the same header word have the same version, type, (truncated) word count and id. -/
theorem C01_injective (v v' : Ver) (ty ty' : Ty) (wc wc' id id' : W) (info info' : BitVec 8) (h : W)
    (h1 : calcHeader v ty wc id info = some h) (h2 : calcHeader v' ty' wc' id' info' = some h) :
    v = v' ∧ ty = ty' ∧ wc.toNat % 2 ^ wcBits v = wc'.toNat % 2 ^ wcBits v ∧
      id.toNat % 2 ^ idBits v = id'.toNat % 2 ^ idBits v := by
  obtain ⟨a1, _, a3, a4, _⟩ := calcHeader_fields h1
  obtain ⟨b1, _, b3, b4, _⟩ := calcHeader_fields h2
  have hv : v = v' := by cases v <;> cases v' <;> simp [verNibble] at * <;> omega
  subst hv
  obtain ⟨d, hd, ht, _⟩ := C01_roundtrip _ _ _ _ _ _ h1
  obtain ⟨d', hd', ht', _⟩ := C01_roundtrip _ _ _ _ _ _ h2
  rw [hd] at hd'; cases hd'
  exact ⟨rfl, ht.symm.trans ht', a3.symm.trans b3, a4.symm.trans b4⟩

example : calcHeader .v2 .read 5 1 0xF ≠ calcHeader .v2 .niRead 5 1 0xF := by decide

/-- The decoder accepts a word exactly when its version nibble is right and its type code is assigned,
and then returns exactly the fields. -/
theorem C01_decode_iff (v : Ver) (h : W) (d : Hdr) :
    extractHeader v h = some d ↔
      field h 28 4 = verNibble v ∧ wireCode v d.ty = some (field h (tyLow v) (8 - tyLow v)) ∧
      d.wc.toNat = field h 8 (wcBits v) ∧ d.id.toNat = field h (28 - idBits v) (idBits v) ∧
      d.info.toNat = field h 0 (infoBits v) :=
  extractHeader_iff v h d

/-- A word with another version nibble or an unassigned type code is refused. -/
theorem C01_decode_refuses (v : Ver) (h : W)
    (hbad : field h 28 4 ≠ verNibble v ∨ ∀ ty, wireCode v ty ≠ some (field h (tyLow v) (8 - tyLow v))) :
    extractHeader v h = none := by
  cases hx : extractHeader v h with
  | none => rfl
  | some d =>
    obtain ⟨a, b, _⟩ := (extractHeader_iff v h d).1 hx
    rcases hbad with hb | hb
    · exact absurd a hb
    · exact absurd b (hb _)

/-- A header of one version is never accepted by the decoder of the other. -/
theorem C01_cross_version (v v' : Ver) (hv : v ≠ v') (ty : Ty) (wc id : W) (info : BitVec 8) (h : W)
    (hc : calcHeader v ty wc id info = some h) : extractHeader v' h = none := by
  apply C01_decode_refuses
  left
  rw [(calcHeader_fields hc).1]
  cases v <;> cases v' <;> simp_all [verNibble]

/-- Types a version does not support are refused at encode time, and only those. -/
theorem C01_encode_refuses_iff (v : Ver) (ty : Ty) (wc id : W) (info : BitVec 8) :
    calcHeader v ty wc id info = none ↔ ¬ supported v ty :=
  calcHeader_none_iff v ty wc id info

example : extractHeader .v1 0x200000F0#32 = none ∧ extractHeader .v2 0x20000070#32 = none := by decide
example : ¬ supported .v1 .configRead ∧ ¬ supported .v2 .bot ∧ supported .v2 .configRead := by
  simp [supported]

/-- The IPbus 1.3 reply headers built with `ExpectedHeader` (bit 2 of the info code set, the "response"
bit) decode to the info code without that bit. -/
theorem C01_expected_v1_info (ty : Ty) (wc id : W) (info : BitVec 8) (h : W)
    (hc : expectedHeader .v1 ty wc id info = some h) :
    ∃ d, extractHeader .v1 h = some d ∧ d.ty = ty ∧ d.info.toNat = info.toNat % 4 := by
  obtain ⟨d, hd, ht, _, _, hi⟩ := C01_roundtrip .v1 ty wc id (info ||| 0x4#8) h hc
  refine ⟨d, hd, ht, ?_⟩
  rw [hi]
  have : (info ||| 0x4#8).toNat % 2 ^ 2 = info.toNat % 2 ^ 2 := by
    rw [BitVec.toNat_or, Nat.or_mod_two_pow]; simp
  exact this

end Verif
