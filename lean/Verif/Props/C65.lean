import Verif.Model.Fmt
import Verif.Spec.Xml
import Verif.Props.C38
/-!
# C65: numbers in texts

See `/verif/properties.jsonl` and `DESIGN.md`. What a string of digits means is `Numeral` of `Verif/Spec/Xml.lean`.
-/

set_option autoImplicit false
set_option linter.unusedSimpArgs false

namespace Verif.Fmt

/-- The binary digits. -/
def binTable : List (Char × Nat) := [('0', 0), ('1', 1)]

/-- No zeros in front. -/
def Short (ds : Str) : Prop := ds.head? = some '0' → ds = ['0']

/-! ## Strings of digits -/

theorem numeral_more {tbl : List (Char × Nat)} {b : Nat} {ch : Nat → Char} (l : List Nat) (hl : ∀ d ∈ l, (ch d, d) ∈ tbl) {s : Str} {n : Nat} (h : Numeral tbl b s n) :
    Numeral tbl b (s ++ l.map ch) (l.foldl (fun n d => b * n + d) n) := by
  induction l generalizing s n with
  | nil => simpa using h
  | cons d l ih =>
    have := ih (fun x hx => hl x (List.mem_cons_of_mem _ hx)) (h.snoc (hl d List.mem_cons_self))
    simpa using this

def valOf (b : Nat) (l : List Nat) : Nat := l.foldl (fun n d => b * n + d) 0

theorem numeral_of {tbl : List (Char × Nat)} {b : Nat} {ch : Nat → Char} {l : List Nat} (hl : ∀ d ∈ l, (ch d, d) ∈ tbl) (hne : l ≠ []) : Numeral tbl b (l.map ch) (valOf b l) := by
  cases l with
  | nil => exact absurd rfl hne
  | cons d l =>
    have := numeral_more (tbl := tbl) (b := b) l (fun x hx => hl x (List.mem_cons_of_mem _ hx)) (Numeral.one (hl d List.mem_cons_self))
    simpa [valOf] using this

theorem valOf_zeros (b k : Nat) (l : List Nat) : valOf b (List.replicate k 0 ++ l) = valOf b l := by
  induction k with
  | zero => rfl
  | succ k ih => rw [List.replicate_succ, List.cons_append]; simpa [valOf] using ih

theorem valOf_drop (b : Nat) (l : List Nat) : valOf b (l.dropWhile (· == 0)) = valOf b l := by
  induction l with
  | nil => rfl
  | cons d l ih =>
    rw [List.dropWhile_cons]
    split
    · rename_i h
      have : d = 0 := by simpa using h
      subst this
      rw [ih]
      simp [valOf]
    · rfl

theorem drop_head (l : List Nat) (d : Nat) (r : List Nat) (h : l.dropWhile (· == 0) = d :: r) : d ≠ 0 := by
  induction l with
  | nil => cases h
  | cons x l ih =>
    rw [List.dropWhile_cons] at h
    split at h
    · exact ih h
    · rename_i h'
      cases h
      simpa using h'

/-- Digits without zeros in front, for a number that is not zero. -/
theorem numeral_drop {tbl : List (Char × Nat)} {b : Nat} {ch : Nat → Char} {l : List Nat} (hl : ∀ d ∈ l, (ch d, d) ∈ tbl) (hz : ∀ d ∈ l, ch d = '0' → d = 0) (hv : valOf b l ≠ 0) :
    Numeral tbl b ((l.dropWhile (· == 0)).map ch) (valOf b l) ∧ Short ((l.dropWhile (· == 0)).map ch) := by
  have hsub : ∀ d ∈ l.dropWhile (· == 0), d ∈ l := fun d hd => (List.dropWhile_sublist _).subset hd
  refine ⟨?_, ?_⟩
  · rw [← valOf_drop]
    refine numeral_of (fun d hd => hl d (hsub d hd)) ?_
    intro h
    rw [← valOf_drop, h] at hv
    exact hv rfl
  · intro h
    cases hd : l.dropWhile (· == 0) with
    | nil => rw [hd] at h; cases h
    | cons d r =>
      rw [hd] at h
      have : ch d = '0' := by simpa using h
      exact absurd (hz d (hsub d (by rw [hd]; exact List.mem_cons_self)) this) (drop_head _ _ _ hd)

theorem numeral_pad {tbl : List (Char × Nat)} {b : Nat} {ch : Nat → Char} {l : List Nat} (k : Nat) (hl : ∀ d ∈ l, (ch d, d) ∈ tbl) (h0 : ch 0 = '0') (h0' : ('0', 0) ∈ tbl) (hne : l ≠ []) :
    Numeral tbl b (List.replicate k '0' ++ l.map ch) (valOf b l) := by
  have := numeral_of (tbl := tbl) (b := b) (ch := ch) (l := List.replicate k 0 ++ l) (by
    intro d hd
    rcases List.mem_append.1 hd with hd | hd
    · rw [(List.mem_replicate.1 hd).2, h0]; exact h0'
    · exact hl d hd) (by simp [hne])
  rw [valOf_zeros, List.map_append, List.map_replicate, h0] at this
  exact this

theorem pad_eq {w n : Nat} (hw : w < 2 ^ 31) (hn : n < 2 ^ 31) : pad w n = List.replicate (w - n) '0' := by
  have h : (BitVec.ofNat 32 w - BitVec.ofNat 32 n).toInt = (w : Int) - n := by
    rw [BitVec.toInt_sub, BitVec.toInt_ofNat', BitVec.toInt_ofNat']
    have e1 : ((w : Nat) : Int).bmod (2 ^ 32) = w := Int.bmod_eq_of_le (by omega) (by omega)
    have e2 : ((n : Nat) : Int).bmod (2 ^ 32) = n := Int.bmod_eq_of_le (by omega) (by omega)
    rw [e1, e2]
    exact Int.bmod_eq_of_le (by omega) (by omega)
  rw [pad]
  simp only [h]
  split
  · congr 1; omega
  · rw [show w - n = 0 by omega]; rfl

/-! ## Binary -/

theorem top_and {n : Nat} (h0 : 0 < n) (v : BitVec n) : (v &&& top n ≠ 0#n) ↔ 2 ^ (n - 1) ≤ v.toNat := by
  have ht : top n = BitVec.twoPow n (n - 1) := by rw [top, BitVec.twoPow_eq]
  rw [ht, BitVec.and_twoPow]
  have hm : v.getLsbD (n - 1) = decide (2 ^ (n - 1) ≤ v.toNat) := by
    rw [← BitVec.msb_eq_getLsbD_last, BitVec.msb_eq_decide]
  have hne : BitVec.twoPow n (n - 1) ≠ 0#n := by
    intro h
    have := congrArg BitVec.toNat h
    rw [BitVec.toNat_twoPow, Nat.mod_eq_of_lt (Nat.pow_lt_pow_right (by omega) (by omega))] at this
    have hp := Nat.two_pow_pos (n - 1)
    simp at this
  rw [hm]
  by_cases h : 2 ^ (n - 1) ≤ v.toNat
  · simp [h, hne]
  · simp [h]

def bch (d : Nat) : Char := if d = 1 then '1' else '0'

/-- The digits. -/
def binDig {n : Nat} : Nat → BitVec n → List Nat
  | 0, _ => []
  | k + 1, v => (if 2 ^ (n - 1) ≤ v.toNat then 1 else 0) :: binDig k (v <<< 1)

theorem binLoop_eq {n : Nat} (h0 : 0 < n) (k : Nat) (v : BitVec n) : binLoop k v = (binDig k v).map bch := by
  induction k generalizing v with
  | zero => rfl
  | succ k ih =>
    rw [binLoop, binDig, ih, List.map_cons]
    congr 1
    by_cases h : 2 ^ (n - 1) ≤ v.toNat
    · rw [if_pos ((top_and h0 v).2 h), if_pos h]; rfl
    · rw [if_neg (fun h' => h ((top_and h0 v).1 h')), if_neg h]; rfl

theorem binVarLoop_eq {n : Nat} (h0 : 0 < n) (k : Nat) (pr : Bool) (v : BitVec n) :
    binVarLoop k pr v = ((if pr then binDig k v else (binDig k v).dropWhile (· == 0))).map bch := by
  induction k generalizing v pr with
  | zero => cases pr <;> rfl
  | succ k ih =>
    rw [binVarLoop, binDig, ih]
    by_cases h : 2 ^ (n - 1) ≤ v.toNat
    · have h' : decide (v &&& top n ≠ 0#n) = true := decide_eq_true ((top_and h0 v).2 h)
      simp only [h', if_pos h]
      cases pr <;> simp [bch]
    · have h' : decide (v &&& top n ≠ 0#n) = false := decide_eq_false (fun h' => h ((top_and h0 v).1 h'))
      simp only [h', if_neg h]
      cases pr <;> simp [bch]

theorem binDig_mem {n : Nat} (k : Nat) (v : BitVec n) : ∀ d ∈ binDig k v, d = 0 ∨ d = 1 := by
  induction k generalizing v with
  | zero => intro d hd; cases hd
  | succ k ih =>
    intro d hd
    rw [binDig] at hd
    rcases List.mem_cons.1 hd with rfl | hd
    · split <;> simp
    · exact ih _ d hd

theorem binDig_length {n : Nat} (k : Nat) (v : BitVec n) : (binDig k v).length = k := by
  induction k generalizing v with
  | zero => rfl
  | succ k ih => rw [binDig, List.length_cons, ih]

theorem binDig_val {n : Nat} (k : Nat) (hk : k ≤ n) (v : BitVec n) (acc : Nat) :
    (binDig k v).foldl (fun n d => 2 * n + d) acc = acc * 2 ^ k + v.toNat / 2 ^ (n - k) := by
  induction k generalizing v acc with
  | zero => simp [binDig, Nat.div_eq_of_lt v.isLt]
  | succ k ih =>
    rw [binDig, List.foldl_cons, ih (by omega)]
    have hv : (v <<< 1).toNat = (2 * v.toNat) % 2 ^ n := by
      rw [BitVec.toNat_shiftLeft, Nat.shiftLeft_eq, Nat.pow_one, Nat.mul_comm]
    rw [hv]
    obtain ⟨m, rfl⟩ : ∃ m, n = m + 1 + k := ⟨n - 1 - k, by omega⟩
    have e1 : m + 1 + k - 1 = m + k := by omega
    have e2 : m + 1 + k - k = m + 1 := by omega
    have e3 : m + 1 + k - (k + 1) = m := by omega
    rw [e1, e2, e3]
    have hlt := v.isLt
    generalize v.toNat = x at hlt ⊢
    have hp : 2 ^ (m + 1 + k) = 2 * 2 ^ (m + k) := by rw [show m + 1 + k = (m + k) + 1 by omega, Nat.pow_succ]; omega
    have hq : 2 ^ (m + k) = 2 ^ m * 2 ^ k := Nat.pow_add 2 m k
    have hmp := Nat.two_pow_pos m
    have hdiv : ∀ y : Nat, 2 * y / 2 ^ (m + 1) = y / 2 ^ m := by
      intro y
      rw [Nat.pow_succ, Nat.mul_comm (2 ^ m) 2, Nat.mul_div_mul_left _ _ (by omega)]
    by_cases h : 2 ^ (m + k) ≤ x
    · rw [if_pos h]
      have : 2 * x % 2 ^ (m + 1 + k) = 2 * (x - 2 ^ (m + k)) := by
        rw [Nat.mod_eq_sub_mod (by omega), Nat.mod_eq_of_lt (by omega)]; omega
      rw [this, hdiv]
      obtain ⟨y, rfl⟩ : ∃ y, x = y + 2 ^ (m + k) := ⟨x - 2 ^ (m + k), by omega⟩
      rw [Nat.add_sub_cancel, hq, Nat.add_mul_div_left _ _ hmp, Nat.pow_succ, Nat.add_mul, Nat.one_mul]
      have : acc * (2 ^ k * 2) = 2 * acc * 2 ^ k := by rw [Nat.mul_comm (2 ^ k) 2, ← Nat.mul_assoc, Nat.mul_comm acc 2]
      omega
    · rw [if_neg h, Nat.mod_eq_of_lt (by omega), hdiv, Nat.pow_succ, Nat.add_zero]
      have : acc * (2 ^ k * 2) = 2 * acc * 2 ^ k := by rw [Nat.mul_comm (2 ^ k) 2, ← Nat.mul_assoc, Nat.mul_comm acc 2]
      omega

theorem binDig_all {n : Nat} (v : BitVec n) : valOf 2 (binDig n v) = v.toNat := by
  rw [valOf, binDig_val n (Nat.le_refl _)]
  simp

/-- **C65, binary.** With fixed width: all bits, and zeros up to the width. With variable width: no zeros in front. -/
theorem C65_bin (width : Nat) (hw : width < 2 ^ 31) {n : Nat} (h0 : 0 < n) (hn : n < 2 ^ 31) (v : BitVec n) :
    (∃ ds, binFixed width v = ['0', 'b'] ++ ds ∧ Numeral binTable 2 ds v.toNat ∧ ds.length = max width n) ∧
    (∃ ds, binVar v = ['0', 'b'] ++ ds ∧ Numeral binTable 2 ds v.toNat ∧ Short ds ∧ ds.length ≤ n) := by
  have hmem : ∀ d ∈ binDig n v, (bch d, d) ∈ binTable := by
    intro d hd
    rcases binDig_mem n v d hd with rfl | rfl <;> simp [bch, binTable]
  constructor
  · refine ⟨pad width n ++ binLoop n v, by rw [binFixed, List.append_assoc], ?_, ?_⟩
    · rw [pad_eq hw hn, binLoop_eq h0, ← binDig_all v]
      refine numeral_pad _ hmem rfl (by simp [binTable]) ?_
      intro h
      have := congrArg List.length h
      rw [binDig_length] at this
      simp at this
      omega
    · rw [pad_eq hw hn, binLoop_eq h0, List.length_append, List.length_replicate, List.length_map, binDig_length]
      omega
  · by_cases hv : v = 0#n
    · refine ⟨['0'], by rw [binVar, if_pos hv]; rfl, ?_, fun _ => rfl, h0⟩
      subst hv
      rw [BitVec.toNat_ofNat, Nat.zero_mod]
      exact .one (by simp [binTable])
    · have h := numeral_drop (b := 2) hmem (by
        intro d hd
        rcases binDig_mem n v d hd with rfl | rfl <;> simp [bch]) (by
        rw [binDig_all]
        intro h'
        exact hv (BitVec.eq_of_toNat_eq (by rw [h', BitVec.toNat_ofNat, Nat.zero_mod])))
      rw [binDig_all] at h
      refine ⟨_, ?_, h.1, h.2, by rw [List.length_map]; exact Nat.le_trans (List.dropWhile_sublist _).length_le (Nat.le_of_eq (binDig_length n v))⟩
      rw [binVar, if_neg hv, binVarLoop_eq h0]
      rfl

/-! ## Hexadecimal -/

def hch (d : Nat) : Char := (hexMap[d]?).getD '?'

theorem hexMap_get {d : Nat} (h : d < 16) : hexMap[d]? = some (hch d) := by
  have : d < hexMap.length := by have : hexMap.length = 16 := by decide +kernel
                                 omega
  rw [hch, List.getElem?_eq_getElem this]
  rfl

theorem hch_mem {d : Nat} (h : d < 16) : (hch d, d) ∈ hexTable := by
  have : ∀ d, d < 16 → (hch d, d) ∈ hexTable := by decide +kernel
  exact this d h

theorem hch_zero {d : Nat} (h : d < 16) : hch d = '0' → d = 0 := by
  have : ∀ d, d < 16 → hch d = '0' → d = 0 := by decide +kernel
  exact this d h

/-- The digits. -/
def hexDig {n : Nat} (v : BitVec n) : Nat → List Nat
  | 0 => []
  | k + 1 => byteAt v k / 16 :: byteAt v k % 16 :: hexDig v k

theorem nib {b : Nat} (h : b < 256) : (b &&& 0xF0) >>> 4 = b / 16 ∧ b &&& 0x0F = b % 16 := by
  have : ∀ b, b < 256 → (b &&& 0xF0) >>> 4 = b / 16 ∧ b &&& 0x0F = b % 16 := by decide +kernel
  exact this b h

theorem byteAt_lt {n : Nat} (v : BitVec n) (i : Nat) : byteAt v i < 256 := Nat.mod_lt _ (by omega)

theorem hexLoop_eq {n : Nat} (v : BitVec n) (k : Nat) : hexLoop v k = some ((hexDig v k).map hch) := by
  induction k with
  | zero => rfl
  | succ k ih =>
    have hb := byteAt_lt v k
    rw [hexLoop, (nib hb).1, (nib hb).2, hexMap_get (by omega), hexMap_get (by omega), ih]
    rfl

theorem hexVarLoop_eq {n : Nat} (v : BitVec n) (k : Nat) (pr : Bool) :
    hexVarLoop v k pr = some ((if pr then hexDig v k else (hexDig v k).dropWhile (· == 0)).map hch) := by
  induction k generalizing pr with
  | zero => cases pr <;> rfl
  | succ k ih =>
    have hb := byteAt_lt v k
    rw [hexVarLoop]
    simp only [(nib hb).1, (nib hb).2, ih, hexMap_get (show byteAt v k / 16 < 16 by omega), hexMap_get (show byteAt v k % 16 < 16 by omega), hexDig]
    generalize byteAt v k / 16 = a
    generalize byteAt v k % 16 = b
    cases pr
    · by_cases ha : a = 0
      · by_cases hb' : b = 0
        · simp [ha, hb']
        · simp [ha, hb']
      · simp [ha]
    · simp

theorem hexDig_mem {n : Nat} (v : BitVec n) (k : Nat) : ∀ d ∈ hexDig v k, d < 16 := by
  induction k with
  | zero => intro d hd; cases hd
  | succ k ih =>
    intro d hd
    have hb := byteAt_lt v k
    rw [hexDig] at hd
    rcases List.mem_cons.1 hd with rfl | hd
    · omega
    · rcases List.mem_cons.1 hd with rfl | hd
      · omega
      · exact ih d hd

theorem hexDig_length {n : Nat} (v : BitVec n) (k : Nat) : (hexDig v k).length = 2 * k := by
  induction k with
  | zero => rfl
  | succ k ih => rw [hexDig, List.length_cons, List.length_cons, ih]; omega

theorem hexDig_val {n : Nat} (v : BitVec n) (k : Nat) (acc : Nat) :
    (hexDig v k).foldl (fun n d => 16 * n + d) acc = acc * 256 ^ k + v.toNat % 256 ^ k := by
  induction k generalizing acc with
  | zero => simp [hexDig, Nat.mod_one]
  | succ k ih =>
    rw [hexDig, List.foldl_cons, List.foldl_cons, ih]
    have hbyte : byteAt v k = v.toNat / 256 ^ k % 256 := by
      rw [byteAt, BitVec.toNat_ushiftRight, Nat.shiftRight_eq_div_pow, Nat.pow_mul]
    have h1 : 16 * (16 * acc + byteAt v k / 16) + byteAt v k % 16 = 256 * acc + byteAt v k := by omega
    rw [h1, hbyte, Nat.pow_succ, Nat.mod_mul, Nat.add_mul, Nat.mul_comm 256 acc, Nat.mul_assoc, Nat.mul_comm 256 (256 ^ k),
      Nat.mul_comm (v.toNat / 256 ^ k % 256) (256 ^ k)]
    omega

theorem hexDig_all (k : Nat) (v : BitVec (8 * k)) : valOf 16 (hexDig v k) = v.toNat := by
  rw [valOf, hexDig_val]
  have : v.toNat < 256 ^ k := by
    have := v.isLt
    rwa [Nat.pow_mul] at this
  rw [Nat.mod_eq_of_lt this]
  omega

/-- **C65, hexadecimal.** -/
theorem C65_hex (width : Nat) (hw : width < 2 ^ 31) {k : Nat} (h0 : 0 < k) (hk : k < 2 ^ 30) (v : BitVec (8 * k)) :
    (∃ ds, hexFixed width k v = some (['0', 'x'] ++ ds) ∧ Numeral hexTable 16 ds v.toNat ∧ ds.length = max width (2 * k)) ∧
    (∃ ds, hexVar k v = some (['0', 'x'] ++ ds) ∧ Numeral hexTable 16 ds v.toNat ∧ Short ds ∧ ds.length ≤ 2 * k) := by
  have hmem : ∀ d ∈ hexDig v k, (hch d, d) ∈ hexTable := fun d hd => hch_mem (hexDig_mem v k d hd)
  constructor
  · refine ⟨pad width (2 * k) ++ (hexDig v k).map hch, ?_, ?_, ?_⟩
    · rw [hexFixed, hexLoop_eq]
      simp only [Option.bind_eq_bind, Option.bind_some, Option.pure_def, List.append_assoc]
    · rw [pad_eq hw (by omega), ← hexDig_all k v]
      refine numeral_pad _ hmem (by decide +kernel) (by simp [hexTable, decTable]) ?_
      intro h
      have := congrArg List.length h
      rw [hexDig_length] at this
      simp at this
      omega
    · rw [pad_eq hw (by omega), List.length_append, List.length_replicate, List.length_map, hexDig_length]
      omega
  · by_cases hv : v = 0#(8 * k)
    · refine ⟨['0'], by rw [hexVar, if_pos hv]; rfl, ?_, fun _ => rfl, (by simp; omega)⟩
      subst hv
      rw [BitVec.toNat_ofNat, Nat.zero_mod]
      exact .one (by simp [hexTable, decTable])
    · have h := numeral_drop (b := 16) hmem (fun d hd => hch_zero (hexDig_mem v k d hd)) (by
        rw [hexDig_all]
        intro h'
        exact hv (BitVec.eq_of_toNat_eq (by rw [h', BitVec.toNat_ofNat, Nat.zero_mod])))
      rw [hexDig_all] at h
      refine ⟨_, ?_, h.1, h.2, by rw [List.length_map, ← hexDig_length v k]; exact (List.dropWhile_sublist _).length_le⟩
      rw [hexVar, if_neg hv, hexVarLoop_eq]
      rfl

/-! ## Decimal -/

def dch (d : Nat) : Char := (decMap[9 + d]?).getD '?'

theorem decMap_get {d : Nat} (h : d < 10) : decMap[9 + d]? = some (dch d) ∧ decMap[9 - d]? = some (dch d) ∧ (dch d, d) ∈ decTable ∧ (dch d = '0' → d = 0) := by
  have : ∀ d, d < 10 → decMap[9 + d]? = some (dch d) ∧ decMap[9 - d]? = some (dch d) ∧ (dch d, d) ∈ decTable ∧ (dch d = '0' → d = 0) := by decide +kernel
  exact this d h

theorem decLoop_eq (room : Nat) (x : Int) (h : x.natAbs < 10 ^ room) (hr : 0 < room) :
    ∃ l : List Nat, decLoop room x = some (l.map dch) ∧ l ≠ [] ∧ (∀ d ∈ l, d < 10) ∧ valOf 10 l.reverse = x.natAbs ∧ (∀ d, l.getLast? = some d → d = 0 → l = [0]) ∧ l.length ≤ room := by
  induction room generalizing x with
  | zero => omega
  | succ room ih =>
    have hd : (x.tdiv 10).natAbs = x.natAbs / 10 := by rw [Int.natAbs_tdiv]; rfl
    have hlt : x.natAbs % 10 < 10 := Nat.mod_lt _ (by omega)
    obtain ⟨g1, g2, g3, g4⟩ := decMap_get hlt
    have hi : 9 + x - x.tdiv 10 * 10 = 9 + (x.natAbs % 10 : Nat) ∨ 9 + x - x.tdiv 10 * 10 = 9 - (x.natAbs % 10 : Nat) := by
      rcases Int.natAbs_eq x with hx | hx
      · left
        have : x.tdiv 10 = ((x.natAbs / 10 : Nat) : Int) := by
          conv => lhs; rw [hx]
          rw [Int.tdiv_eq_ediv_of_nonneg (by omega)]; omega
        omega
      · right
        have : x.tdiv 10 = -((x.natAbs / 10 : Nat) : Int) := by
          conv => lhs; rw [hx]
          rw [Int.neg_tdiv, Int.tdiv_eq_ediv_of_nonneg (by omega)]; omega
        omega
    have hc : decMap[(9 + x - x.tdiv 10 * 10).toNat]? = some (dch (x.natAbs % 10)) := by
      rcases hi with hi | hi
      · rw [hi, show (9 + ((x.natAbs % 10 : Nat) : Int)).toNat = 9 + x.natAbs % 10 by omega]; exact g1
      · rw [hi, show (9 - ((x.natAbs % 10 : Nat) : Int)).toNat = 9 - x.natAbs % 10 by omega]; exact g2
    have hn : ¬ (9 + x - x.tdiv 10 * 10 < 0) := by omega
    by_cases hv : x.tdiv 10 = 0
    · have h10 : x.natAbs / 10 = 0 := by rw [← hd, hv]; rfl
      refine ⟨[x.natAbs % 10], ?_, by simp, by simpa using hlt, ?_, ?_, by simp⟩
      · rw [decLoop]
        simp only [if_neg hn, hc, if_pos hv]
        rfl
      · simp [valOf]; omega
      · intro d hl hz
        simp only [List.getLast?_singleton, Option.some.injEq] at hl
        rw [hl, hz]
    · have h10 : x.natAbs / 10 ≠ 0 := by rw [← hd]; exact fun h => hv (Int.natAbs_eq_zero.1 h)
      have hr' : 0 < room := by
        rcases Nat.eq_zero_or_pos room with rfl | h'
        · rw [Nat.zero_add, Nat.pow_one] at h; omega
        · exact h'
      obtain ⟨l, i1, i2, i3, i4, i5, i6⟩ := ih (x.tdiv 10) (by rw [hd]; rw [Nat.pow_succ] at h; omega) hr'
      refine ⟨x.natAbs % 10 :: l, ?_, by simp, ?_, ?_, ?_, by simp; omega⟩
      · rw [decLoop]
        simp only [if_neg hn, hc, if_neg hv, i1]
        rfl
      · intro d hm
        rcases List.mem_cons.1 hm with rfl | hm
        · exact hlt
        · exact i3 d hm
      · rw [List.reverse_cons, valOf, List.foldl_append]
        change 10 * valOf 10 l.reverse + x.natAbs % 10 = _
        rw [i4, hd]; omega
      · intro d hl hz
        exfalso
        have hl' : l.getLast? = some d := by
          rw [List.getLast?_cons] at hl
          cases hg : l.getLast? with
          | none => rw [List.getLast?_eq_none_iff] at hg; exact absurd hg i2
          | some y => rw [hg] at hl; simpa using hl
        have := i5 d hl' hz
        rw [this, hd] at i4
        exact h10 i4.symm

theorem decLoop_room (r : Nat) (x : Int) (s : Str) (h : decLoop r x = some s) : decLoop (r + 1) x = some s := by
  induction r generalizing x s with
  | zero => cases h
  | succ r ih =>
    rw [decLoop] at h
    rw [decLoop]
    by_cases hneg : 9 + x - x.tdiv 10 * 10 < 0
    · simp only [if_pos hneg] at h; cases h
    · simp only [if_neg hneg] at h ⊢
      cases hc : decMap[(9 + x - x.tdiv 10 * 10).toNat]? with
      | none => rw [hc] at h; cases h
      | some c =>
        rw [hc] at h
        simp only [Option.bind_eq_bind, Option.bind_some] at h ⊢
        by_cases hz : x.tdiv 10 = 0
        · rw [if_pos hz] at h ⊢; exact h
        · rw [if_neg hz] at h ⊢
          cases hr : decLoop r (x.tdiv 10) with
          | none => rw [hr] at h; cases h
          | some t => rw [hr] at h; rw [ih _ _ hr]; exact h

theorem decLoop_more (k r : Nat) (x : Int) (s : Str) (h : decLoop r x = some s) : decLoop (r + k) x = some s := by
  induction k with
  | zero => exact h
  | succ k ih => exact decLoop_room _ _ _ ih

theorem value_lt (signed : Bool) {n : Nat} (hn : n ≤ 64) (v : BitVec n) : (value signed v).natAbs < 10 ^ 20 := by
  have h1 := v.isLt
  have h2 : 2 ^ n ≤ 2 ^ 64 := Nat.pow_le_pow_right (by omega) hn
  have h3 : 2 ^ 64 < 10 ^ 20 := by decide +kernel
  rw [value]
  split
  · have := BitVec.toInt_lt (x := v)
    have := BitVec.le_toInt v
    have : (2 : Int) ^ (n - 1) ≤ 2 ^ n := by
      have := Nat.pow_le_pow_right (n := 2) (by omega) (show n - 1 ≤ n by omega)
      exact_mod_cast this
    have : ((2 ^ n : Nat) : Int) = (2 : Int) ^ n := by norm_cast
    omega
  · simp; omega

/-- **C65, decimal.** The buffer of 24 characters is large enough for all types; the sign is that of the number, the digits are those of its absolute value, with zeros up to the width
or without zeros in front. -/
theorem C65_dec (width : Nat) (hw : width < 2 ^ 31) (signed : Bool) {n : Nat} (hn : n ≤ 64) (v : BitVec n) :
    (∃ m ds, decFixed width signed v = some ((if value signed v < 0 then ['-'] else []) ++ ds) ∧ Numeral decTable 10 ds (value signed v).natAbs ∧ ds.length = max width m ∧
      decVar signed v = some ((if value signed v < 0 then ['-'] else []) ++ ds.drop (ds.length - m)) ∧ Numeral decTable 10 (ds.drop (ds.length - m)) (value signed v).natAbs ∧
      Short (ds.drop (ds.length - m)) ∧ ∀ r, 0 < r → (value signed v).natAbs < 10 ^ r → m ≤ r) := by
  have hsign : sign signed (value signed v) = if value signed v < 0 then ['-'] else [] := by
    rw [sign]
    cases signed with
    | true => simp
    | false =>
      have : ¬ value false v < 0 := by simp [value]
      simp [this]
  obtain ⟨l, i1, i2, i3, i4, i5, i6⟩ := decLoop_eq 20 (value signed v) (value_lt signed hn v) (by omega)
  have h24 : decLoop 24 (value signed v) = some (l.map dch) := decLoop_more 4 20 _ _ i1
  have hshort : ∀ r, 0 < r → (value signed v).natAbs < 10 ^ r → l.length ≤ r := by
    intro r hr hlt
    by_cases h20 : r ≤ 20
    · obtain ⟨l', j1, _, _, _, _, j6⟩ := decLoop_eq r (value signed v) hlt hr
      have := decLoop_more (20 - r) r _ _ j1
      rw [show r + (20 - r) = 20 by omega, i1] at this
      have := congrArg (Option.map List.length) this
      simp at this
      omega
    · omega
  have hmem : ∀ d ∈ l.reverse, (dch d, d) ∈ decTable := fun d hd => (decMap_get (i3 d (List.mem_reverse.1 hd))).2.2.1
  have hrev : (l.map dch).reverse = l.reverse.map dch := List.map_reverse.symm
  have hdrop : (List.replicate (width - l.length) '0' ++ (l.map dch).reverse).drop ((List.replicate (width - l.length) '0' ++ (l.map dch).reverse).length - l.length) =
      (l.map dch).reverse := by
    rw [List.drop_append]
    simp
  refine ⟨l.length, List.replicate (width - l.length) '0' ++ (l.map dch).reverse, ?_, ?_, ?_, ?_, ?_, ?_, hshort⟩
  · rw [decFixed, h24]
    simp only [Option.bind_eq_bind, Option.bind_some, Option.pure_def, hsign, List.length_map, List.append_assoc]
    rw [pad_eq hw (by omega)]
  · rw [hrev, ← i4]
    exact numeral_pad _ hmem (by decide +kernel) (by simp [decTable]) (by simpa using i2)
  · simp; omega
  · rw [decVar, h24, hdrop]
    simp only [Option.bind_eq_bind, Option.bind_some, Option.pure_def, hsign]
  · rw [hdrop, hrev, ← i4]
    exact numeral_of hmem (by simpa using i2)
  · rw [hdrop, hrev]
    intro hh
    cases hl : l.reverse with
    | nil => rw [List.reverse_eq_nil_iff] at hl; exact absurd hl i2
    | cons d r =>
      rw [hl] at hh
      have hd0 : dch d = '0' := by simpa using hh
      have hdm : d ∈ l := List.mem_reverse.1 (by rw [hl]; exact List.mem_cons_self)
      have hz := (decMap_get (i3 d hdm)).2.2.2 hd0
      have hlast : l.getLast? = some d := by rw [← List.head?_reverse, hl]; rfl
      have := i5 d hlast hz
      rw [this] at hl
      simp at hl
      rw [← hl.1, hl.2]
      decide +kernel

/-- **C65.** A 32-bit word written in hexadecimal (as addresses, masks and values are in messages) and read as a number of an address file is the same word. -/
theorem C65_read_back (width : Nat) (hw : width ≤ 10) (v : W) :
    (∃ s, hexFixed width 4 v = some s ∧ parseU32 s = .ok v) ∧ (∃ s, hexVar 4 v = some s ∧ parseU32 s = .ok v) ∧ (∃ s, decVar false v = some s ∧ parseU32 s = .ok v) := by
  obtain ⟨⟨ds, a1, a2, a3⟩, ⟨es, b1, b2, b3, b4⟩⟩ := C65_hex width (by omega) (k := 4) (by omega) (by omega) v
  obtain ⟨m, fs, c1, c2, c3, c4, c5, c6, c7⟩ := C65_dec 0 (by omega) false (n := 32) (by omega) v
  have hval : (value false v).natAbs = v.toNat := rfl
  have hneg : ¬ value false v < 0 := by simp [value]
  rw [if_neg hneg] at c4
  rw [hval] at c5 c7
  refine ⟨⟨_, a1, (C38_exact _ v).2 ⟨_, .inr ⟨['0', 'x'], ds, by simp [hexPrefixes], rfl, a2, rfl⟩, by omega⟩⟩,
    ⟨_, b1, (C38_exact _ v).2 ⟨_, .inr ⟨['0', 'x'], es, by simp [hexPrefixes], rfl, b2, rfl⟩, by omega⟩⟩,
    ⟨_, c4, (C38_exact _ v).2 ⟨_, .inl ⟨c5, rfl⟩, ?_⟩⟩⟩
  have := c7 10 (by omega) (by have := v.isLt; omega)
  rw [List.nil_append, List.length_drop]
  omega

/-- Decimal digits read as hexadecimal ones: a larger number, unless there is only one. -/
theorem dec_as_hex {s : Str} {a b : Nat} (ha : Numeral decTable 10 s a) (hb : Numeral hexTable 16 s b) : a ≤ b ∧ (9 < a → a < b) := by
  have hd : ∀ ch x y, (ch, x) ∈ decTable → (ch, y) ∈ hexTable → x = y ∧ x < 10 := by
    intro ch x y h1 h2
    have : ∀ p ∈ decTable, ∀ q ∈ hexTable, p.1 = q.1 → p.2 = q.2 ∧ p.2 < 10 := by decide +kernel
    exact this _ h1 _ h2 rfl
  induction ha generalizing b with
  | one h1 =>
    generalize hs : [_] = s at hb
    cases hb with
    | one h2 => cases hs; have := hd _ _ _ h1 h2; omega
    | snoc h2 h3 =>
      exfalso
      have := congrArg List.length hs
      cases h2 <;> simp at this
  | @snoc s n ch d h0 h1 ih =>
    generalize hs : s ++ [ch] = t at hb
    cases hb with
    | one h2 =>
      exfalso
      have := congrArg List.length hs
      cases h0 <;> simp at this
    | snoc h2 h3 =>
      obtain ⟨rfl, h4⟩ := List.append_inj' hs rfl
      cases h4
      have := ih h2
      have := hd _ _ _ h1 h3
      omega

/-- **C65, response codes.** The code in the message, read as the hexadecimal number that it is announced as, is the code of the reply exactly for codes below ten. -/
theorem C65_code_partial (code : BitVec 8) :
    ∃ ds x, codeText code = some (['0', 'x'] ++ ds) ∧ Numeral hexTable 16 ds x ∧ (x = code.toNat ↔ code.toNat < 10) := by
  obtain ⟨m, fs, c1, c2, c3, c4, c5, c6, c7⟩ := C65_dec 0 (by omega) false (n := 8) (by omega) code
  have hval : (value false code).natAbs = code.toNat := rfl
  have hneg : ¬ value false code < 0 := by simp [value]
  rw [if_neg hneg] at c4
  rw [hval] at c5
  have hx : ∀ {s : Str} {a : Nat}, Numeral decTable 10 s a → ∃ b, Numeral hexTable 16 s b ∧ (a < 10 → b = a) := by
    intro s a h
    induction h with
    | one h => exact ⟨_, .one (List.mem_append_left _ h), fun _ => rfl⟩
    | snoc h0 h ih =>
      obtain ⟨b, h1, h2⟩ := ih
      refine ⟨_, .snoc h1 (List.mem_append_left _ h), fun h => ?_⟩
      have := h2 (by omega)
      omega
  obtain ⟨b, h1, h2⟩ := hx c5
  refine ⟨_, b, ?_, h1, ?_⟩
  · rw [codeText, c4]; rfl
  · have := dec_as_hex c5 h1
    constructor
    · intro h; omega
    · exact h2

/-- Violation of C65: the code 15 is written `0x15`. -/
theorem C65_violated_code : codeText 15#8 = some "0x15".toList ∧ hexVar 1 15#8 = some "0xF".toList := by decide +kernel

/-- Non-vacuity. -/
example : hexFixed 0 4 0xBEEF#32 = some "0x0000BEEF".toList ∧ hexVar 4 0xBEEF#32 = some "0xBEEF".toList ∧ binFixed 10 0x5#8 = "0b0000000101".toList ∧
    binVar 0x5#8 = "0b101".toList ∧ decVar true 0x8000000000000000#64 = some "-9223372036854775808".toList ∧ decFixed 6 true (-42#32) = some "-000042".toList := by
  decide +kernel

end Verif.Fmt
