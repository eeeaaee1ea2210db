import Verif.Spec.Xml
/-!
# C38: numeric attributes are parsed exactly
-/

set_option autoImplicit false

namespace Verif

theorem streamRead_snoc (b : Nat) (s : Str) (ch : Char) :
    streamRead b (s ++ [ch]) = b * streamRead b s + digitVal ch := by
  simp [streamRead, List.foldl_append]

/-- A table agrees with the model's digits. -/
structure TableOk (tbl : List (Char × Nat)) (chars : Str) : Prop where
  val : ∀ x ∈ tbl, digitVal x.1 = x.2
  mem : ∀ ch, (∃ d, (ch, d) ∈ tbl) ↔ ch ∈ chars

theorem decOk : TableOk decTable (digitChars 0) where
  val := by decide
  mem := by intro ch; simp [decTable, digitChars]; exact ⟨by
    rintro ⟨d, h⟩; rcases h with h | h | h | h | h | h | h | h | h | h <;> simp [h.1], by
    rintro (h | h | h | h | h | h | h | h | h | h) <;> subst h <;> simp⟩

theorem hexOk {p : Nat} (hp : p ≠ 0) : TableOk hexTable (digitChars p) where
  val := by decide
  mem := by
    intro ch
    have : digitChars p = hexTable.map (·.1) := by simp [digitChars, hp, hexTable, decTable]
    rw [this, List.mem_map]
    exact ⟨fun ⟨d, h⟩ => ⟨_, h, rfl⟩, fun ⟨x, h, e⟩ => ⟨x.2, by cases e; exact h⟩⟩

theorem numeral_iff {tbl : List (Char × Nat)} {chars : Str} (ok : TableOk tbl chars) (b : Nat) (s : Str) (v : Nat) :
    Numeral tbl b s v ↔ s ≠ [] ∧ (∀ ch ∈ s, ch ∈ chars) ∧ v = streamRead b s := by
  constructor
  · intro h
    induction h with
    | one hm =>
      refine ⟨by simp, ?_, ?_⟩
      · intro ch hc; rw [List.mem_singleton] at hc; subst hc; exact (ok.mem _).1 ⟨_, hm⟩
      · simp [streamRead, ok.val _ hm]
    | snoc _ hm ih =>
      obtain ⟨_, h2, h3⟩ := ih
      refine ⟨by simp, ?_, ?_⟩
      · intro ch hc
        rcases List.mem_append.1 hc with hc | hc
        · exact h2 ch hc
        · rw [List.mem_singleton] at hc; subst hc; exact (ok.mem _).1 ⟨_, hm⟩
      · rw [streamRead_snoc, ← h3, ok.val _ hm]
  · rintro ⟨h1, h2, h3⟩
    subst h3
    generalize hn : s.length = n
    induction n generalizing s with
    | zero => exact absurd (List.length_eq_zero_iff.1 hn) h1
    | succ n ih =>
      rcases List.eq_nil_or_concat s with h | ⟨t, ch, h⟩
      · exact absurd h h1
      · rw [List.concat_eq_append] at h
        subst h
        obtain ⟨d, hd⟩ := (ok.mem ch).2 (h2 ch (by simp))
        have hv : digitVal ch = d := ok.val _ hd
        by_cases ht : t = []
        · subst ht
          have := Numeral.one (base := b) hd
          rw [← hv] at this
          simpa [streamRead] using this
        · have := (ih t ht (fun x hx => h2 x (by simp [hx])) (by simpa using hn)).snoc hd
          rw [streamRead_snoc, show digitVal ch = d from hv]
          exact this

theorem dec_no_prefix {s : Str} (h : ∀ ch ∈ s, ch ∈ digitChars 0) : basePrefix s = 0 := by
  have hx : ∀ i : Nat, s[i]? ≠ some 'x' ∧ s[i]? ≠ some 'X' := by
    intro i
    constructor <;> intro e <;>
    · have := h _ (List.mem_of_getElem? e)
      revert this; decide
  simp [basePrefix, (hx 0).1, (hx 0).2, (hx 1).1, (hx 1).2]

theorem hex_prefix {pre ds : Str} (hp : pre ∈ hexPrefixes) (hd : ds ≠ []) :
    basePrefix (pre ++ ds) = pre.length := by
  cases ds with
  | nil => exact absurd rfl hd
  | cons d ds =>
    simp only [hexPrefixes, List.mem_cons, List.not_mem_nil, or_false] at hp
    rcases hp with h | h | h | h <;> subst h <;> simp [basePrefix]

theorem prefix_split {s : Str} (h : basePrefix s ≠ 0) :
    ∃ pre, pre ∈ hexPrefixes ∧ basePrefix s = pre.length ∧ s = pre ++ s.drop (basePrefix s) ∧ s.drop (basePrefix s) ≠ [] := by
  match s with
  | [] => simp [basePrefix] at h
  | [a] => simp [basePrefix] at h
  | [a, b] =>
    have : a = 'x' ∨ a = 'X' := by
      by_cases h1 : a = 'x' ∨ a = 'X'
      · exact h1
      · simp [basePrefix, h1] at h
    rcases this with e | e <;> subst e
    · exact ⟨['x'], by decide, by simp [basePrefix], by simp [basePrefix], by simp [basePrefix]⟩
    · exact ⟨['X'], by decide, by simp [basePrefix], by simp [basePrefix], by simp [basePrefix]⟩
  | a :: b :: c :: rest =>
    by_cases h1 : a = 'x' ∨ a = 'X'
    · rcases h1 with e | e <;> subst e
      · exact ⟨['x'], by decide, by simp [basePrefix], by simp [basePrefix], by simp [basePrefix]⟩
      · exact ⟨['X'], by decide, by simp [basePrefix], by simp [basePrefix], by simp [basePrefix]⟩
    · have h2 : a = '0' ∧ (b = 'x' ∨ b = 'X') := by
        by_cases h2 : a = '0' ∧ (b = 'x' ∨ b = 'X')
        · exact h2
        · simp [basePrefix, h1, h2] at h
      obtain ⟨e, h2⟩ := h2
      subst e
      rcases h2 with e | e <;> subst e
      · exact ⟨['0', 'x'], by decide, by simp [basePrefix], by simp [basePrefix], by simp [basePrefix]⟩
      · exact ⟨['0', 'X'], by decide, by simp [basePrefix], by simp [basePrefix], by simp [basePrefix]⟩

theorem hexChars_eq {p : Nat} (hp : p ≠ 0) : digitChars p = digitChars 1 := by simp [digitChars, hp]

theorem prefix_len {pre : Str} (h : pre ∈ hexPrefixes) : pre.length ≠ 0 := by
  simp only [hexPrefixes, List.mem_cons, List.not_mem_nil, or_false] at h
  rcases h with h | h | h | h <;> subst h <;> decide

/-- The string is written as a number exactly when the model's character test passes; digits and value. -/
theorem written_iff (s : Str) (n v : Nat) :
    NumWritten s n v ↔ s ≠ [] ∧ (∀ ch ∈ s.drop (basePrefix s), ch ∈ digitChars (basePrefix s)) ∧
      n = (s.drop (basePrefix s)).length ∧
      v = streamRead (if basePrefix s ≠ 0 then 16 else 10) (s.drop (basePrefix s)) := by
  constructor
  · rintro (⟨h, hn⟩ | ⟨pre, ds, hp, hs, h, hn⟩)
    · rw [numeral_iff decOk] at h
      have hb := dec_no_prefix h.2.1
      rw [hb]
      simp only [List.drop_zero, ne_eq, not_true_eq_false, if_false]
      exact ⟨h.1, h.2.1, hn, h.2.2⟩
    · rw [numeral_iff (hexOk (p := 1) (by decide))] at h
      have hb := hex_prefix hp h.1
      subst hs
      have hl := prefix_len hp
      rw [hb, if_pos hl, hexChars_eq hl]
      simp only [List.drop_left]
      refine ⟨?_, h.2.1, hn, h.2.2⟩
      intro e
      exact h.1 (List.append_eq_nil_iff.1 e).2
  · rintro ⟨h1, h2, h3, h4⟩
    by_cases hb : basePrefix s = 0
    · left
      rw [hb] at h2 h3 h4
      simp only [List.drop_zero, ne_eq, not_true_eq_false, if_false] at h2 h3 h4
      exact ⟨(numeral_iff decOk _ _ _).2 ⟨h1, h2, h4⟩, h3⟩
    · right
      obtain ⟨pre, hp, _, hs, hd⟩ := prefix_split hb
      rw [hexChars_eq hb] at h2
      rw [if_pos hb] at h4
      exact ⟨pre, _, hp, hs, (numeral_iff (hexOk (p := 1) (by decide)) _ _ _).2 ⟨hd, h2, h4⟩, h3⟩

theorem any_not_contains (l c : Str) : l.any (fun ch => !c.contains ch) = true ↔ ¬ ∀ ch ∈ l, ch ∈ c := by
  simp

/-- **C38** (accepted): a numeric attribute yields the value `v` exactly when it is written as a decimal number,
or as a hexadecimal number introduced by `0x`, `0X`, `x` or `X`, with at most ten digits and value `v < 2^32`. -/
theorem C38_exact (s : Str) (v : W) :
    parseU32 s = .ok v ↔ ∃ n, NumWritten s n v.toNat ∧ n ≤ 10 := by
  unfold parseU32
  by_cases h1 : s = []
  · rw [if_pos h1]
    constructor
    · intro h; cases h
    · rintro ⟨n, h, _⟩; exact absurd h1 ((written_iff _ _ _).1 h).1
  rw [if_neg h1]
  simp only []
  by_cases h2 : ∀ ch ∈ s.drop (basePrefix s), ch ∈ digitChars (basePrefix s)
  · rw [if_neg (by rw [any_not_contains]; exact fun h => h h2)]
    by_cases h3 : (s.drop (basePrefix s)).length > 10
    · rw [if_pos h3]
      constructor
      · intro h; cases h
      · rintro ⟨n, h, hn⟩
        have := ((written_iff _ _ _).1 h).2.2.1
        omega
    rw [if_neg h3]
    generalize hv : streamRead (if basePrefix s ≠ 0 then 16 else 10) (s.drop (basePrefix s)) = t
    by_cases h4 : t / 2 ^ 32 ≠ 0
    · rw [if_pos h4]
      constructor
      · intro h; cases h
      · rintro ⟨n, h, hn⟩
        have := ((written_iff _ _ _).1 h).2.2.2
        have := v.isLt
        omega
    rw [if_neg h4]
    have ht : t < 2 ^ 32 := by omega
    constructor
    · intro h
      cases h
      refine ⟨_, (written_iff _ _ _).2 ⟨h1, h2, rfl, ?_⟩, by omega⟩
      rw [BitVec.toNat_ofNat, Nat.mod_eq_of_lt ht, hv]
    · rintro ⟨n, h, hn⟩
      have := ((written_iff _ _ _).1 h).2.2.2
      rw [hv] at this
      rw [← this, BitVec.ofNat_toNat, BitVec.setWidth_eq]
  · rw [if_pos (by rw [any_not_contains]; exact h2)]
    constructor
    · intro h; cases h
    · rintro ⟨n, h, hn⟩
      exact absurd ((written_iff _ _ _).1 h).2.1 h2

/-- **C38** (refused as incorrect): exactly the strings that are not written as a number. -/
theorem C38_incorrect (s : Str) : parseU32 s = .incorrect ↔ ¬ ∃ n v, NumWritten s n v := by
  unfold parseU32
  by_cases h1 : s = []
  · rw [if_pos h1]
    exact ⟨fun _ ⟨n, v, h⟩ => absurd h1 ((written_iff _ _ _).1 h).1, fun _ => rfl⟩
  rw [if_neg h1]
  simp only []
  by_cases h2 : ∀ ch ∈ s.drop (basePrefix s), ch ∈ digitChars (basePrefix s)
  · rw [if_neg (by rw [any_not_contains]; exact fun h => h h2)]
    constructor
    · intro h
      generalize streamRead (if basePrefix s ≠ 0 then 16 else 10) (s.drop (basePrefix s)) = t at h
      split at h
      · cases h
      · split at h <;> cases h
    · intro h
      exact absurd ⟨_, _, (written_iff _ _ _).2 ⟨h1, h2, rfl, rfl⟩⟩ h
  · rw [if_pos (by rw [any_not_contains]; exact h2)]
    exact ⟨fun _ ⟨n, v, h⟩ => absurd ((written_iff _ _ _).1 h).2.1 h2, fun _ => rfl⟩

/-- **C38** (refused as too big): exactly the numbers with more than ten digits or a value of 2^32 or more. -/
theorem C38_too_big (s : Str) : parseU32 s = .tooBig ↔ ∃ n v, NumWritten s n v ∧ (10 < n ∨ 2 ^ 32 ≤ v) := by
  constructor
  · intro h
    have hw : ∃ n v, NumWritten s n v := by
      by_cases hx : ∃ n v, NumWritten s n v
      · exact hx
      · rw [(C38_incorrect s).2 hx] at h; cases h
    obtain ⟨n, v, hw⟩ := hw
    refine ⟨n, v, hw, ?_⟩
    by_cases hlt : 10 < n
    · exact .inl hlt
    by_cases hv : 2 ^ 32 ≤ v
    · exact .inr hv
    have := (C38_exact s (BitVec.ofNat 32 v)).2 ⟨n, by
      rw [BitVec.toNat_ofNat, Nat.mod_eq_of_lt (by omega)]; exact hw, by omega⟩
    rw [this] at h; cases h
  · rintro ⟨n, v, hw, hb⟩
    cases hp : parseU32 s with
    | tooBig => rfl
    | incorrect => exact absurd ⟨n, v, hw⟩ ((C38_incorrect s).1 hp)
    | ok w =>
      obtain ⟨n', hw', hn'⟩ := (C38_exact s w).1 hp
      have a := (written_iff _ _ _).1 hw
      have b := (written_iff _ _ _).1 hw'
      have h1 : n = n' := by rw [a.2.2.1, b.2.2.1]
      have h2 : v = w.toNat := by rw [a.2.2.2, b.2.2.2]
      have := w.isLt
      omega

/-- The value of a string is unique. -/
theorem written_unique {s : Str} {n n' v v' : Nat} (h : NumWritten s n v) (h' : NumWritten s n' v') : n = n' ∧ v = v' := by
  have a := (written_iff _ _ _).1 h
  have b := (written_iff _ _ _).1 h'
  exact ⟨by rw [a.2.2.1, b.2.2.1], by rw [a.2.2.2, b.2.2.2]⟩

-- concrete cases: accepted, refused as incorrect, refused as too big
example : parseU32 "0x00000010".toList = .ok 16#32 ∧ parseU32 "xFf".toList = .ok 255#32 ∧
    parseU32 "4294967295".toList = .ok 0xFFFFFFFF#32 ∧ parseU32 "0x".toList = .incorrect ∧
    parseU32 "".toList = .incorrect ∧ parseU32 "12a".toList = .incorrect ∧ parseU32 "-1".toList = .incorrect ∧
    parseU32 "4294967296".toList = .tooBig ∧ parseU32 "00000000001".toList = .tooBig := by decide +kernel

example : ∃ n, NumWritten "0x1F".toList n 31 ∧ n ≤ 10 :=
  ⟨2, .inr ⟨"0x".toList, "1F".toList, by decide, by decide,
    .snoc (s := ['1']) (n := 1) (d := 15) (.one (by decide)) (by decide), by decide⟩, by decide⟩

end Verif
