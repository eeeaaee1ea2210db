import Verif.Model.Make
import Verif.Spec.Make
import Verif.Props.C39
import Verif.Props.C51
/-!
# C67: the client for a URI

The client that is made for a URI has the target and the settings that the URI names.
-/

set_option autoImplicit false
set_option linter.unusedSimpArgs false

namespace Verif.Make
open Verif.Uri (Uri NoSp)
open Verif.Spec

/-! ## Numbers -/

theorem isDigit_iff {c : Char} : isDigit c = true ↔ 48 ≤ c.toNat ∧ c.toNat ≤ 57 := by simp [isDigit]

theorem decVal_snoc (s : Str) (c : Char) : decVal (s ++ [c]) = 10 * decVal s + (c.toNat - 48) := by simp [decVal]

theorem digits_iff (s : Str) (n : Nat) : Digits s n ↔ s ≠ [] ∧ s.all isDigit = true ∧ decVal s = n := by
  constructor
  · intro h
    induction h with
    | one c h => exact ⟨by simp, by simp [isDigit_iff]; exact h, by simp [decVal]⟩
    | more s n c h hs ih =>
      refine ⟨by simp, ?_, by rw [decVal_snoc, ih.2.2]⟩
      rw [List.all_append, ih.2.1]
      simp [isDigit_iff]; exact h
  · rintro ⟨h1, h2, rfl⟩
    generalize hl : s.length = l
    induction l generalizing s with
    | zero => exact absurd (List.eq_nil_of_length_eq_zero hl) h1
    | succ l ih =>
      rcases List.eq_nil_or_concat s with rfl | ⟨t, c, rfl⟩
      · exact absurd rfl h1
      · rw [List.concat_eq_append] at *
        rw [List.all_append, Bool.and_eq_true] at h2
        have hc := isDigit_iff.1 (by simpa using h2.2)
        rw [decVal_snoc]
        cases t with
        | nil => simpa [decVal] using Digits.one c hc
        | cons x t => exact .more _ _ c hc (ih _ (by simp) h2.1 (by simpa using hl))

theorem digits64_iff (s : Str) (n : Nat) : digits64 s = some n ↔ Digits s n ∧ n < 2 ^ 64 := by
  rw [digits_iff]
  unfold digits64
  split
  · rename_i h
    simp only [Option.some.injEq]
    constructor
    · rintro rfl; exact ⟨⟨h.1, h.2.1, rfl⟩, h.2.2⟩
    · rintro ⟨⟨_, _, rfl⟩, _⟩; rfl
  · rename_i h
    simp only [reduceCtorEq, false_iff]
    rintro ⟨⟨h1, h2, rfl⟩, h3⟩
    exact h ⟨h1, h2, h3⟩

theorem digits_head {s : Str} {n : Nat} (h : Digits s n) : ∃ c r, s = c :: r ∧ 48 ≤ c.toNat ∧ c.toNat ≤ 57 := by
  obtain ⟨h1, h2, _⟩ := (digits_iff s n).1 h
  cases s with
  | nil => exact absurd rfl h1
  | cons c r => exact ⟨c, r, rfl, isDigit_iff.1 (by simp at h2; exact h2.1)⟩

/-- `lexical_cast` accepts numerals, and numbers behind a minus sign. -/
theorem lexSize_iff (s : Str) (n : Nat) :
    lexSize s = some n ↔ Numeral s n ∨ ∃ r m, s = '-' :: r ∧ Digits r m ∧ m < 2 ^ 64 ∧ n = (2 ^ 64 - m) % 2 ^ 64 := by
  unfold lexSize Numeral
  split
  · rename_i r
    simp only [Option.map_eq_some_iff, digits64_iff]
    constructor
    · rintro ⟨m, ⟨h1, h2⟩, rfl⟩; exact .inr ⟨r, m, rfl, h1, h2, rfl⟩
    · rintro (⟨_, h | ⟨r', h, _⟩⟩ | ⟨r', m, h, h1, h2, rfl⟩)
      · obtain ⟨c, t, he, h1, _⟩ := digits_head h
        cases he; exact absurd h1 (by decide)
      · cases h
      · cases h; exact ⟨m, ⟨h1, h2⟩, rfl⟩
  · rename_i r
    rw [digits64_iff]
    constructor
    · rintro ⟨h1, h2⟩; exact .inl ⟨h2, .inr ⟨r, rfl, h1⟩⟩
    · rintro (⟨h0, h | ⟨r', h, h1⟩⟩ | ⟨r', m, h, _⟩)
      · obtain ⟨c, t, he, h1, _⟩ := digits_head h
        cases he; exact absurd h1 (by decide)
      · cases h; exact ⟨h1, h0⟩
      · cases h
  · rename_i hm hp
    rw [digits64_iff]
    constructor
    · rintro ⟨h1, h2⟩; exact .inl ⟨h2, .inl h1⟩
    · rintro (⟨h0, h | ⟨r', h, h1⟩⟩ | ⟨r', m, h, _⟩)
      · exact ⟨h, h0⟩
      · exact absurd h (hp r')
      · exact absurd h (hm r')

theorem lexSize_plain {s : Str} (hs : s.head? ≠ some '-') (n : Nat) : lexSize s = some n ↔ Numeral s n := by
  rw [lexSize_iff]
  constructor
  · rintro (h | ⟨r, m, rfl, _⟩)
    · exact h
    · exact absurd rfl hs
  · exact .inl

theorem hexDig_iff (c : Char) (d : Nat) : hexDig c = some d ↔ HexDigit c d := by
  unfold hexDig HexDigit
  split
  · simp only [Option.some.injEq]; omega
  · split
    · simp only [Option.some.injEq]; omega
    · split
      · simp only [Option.some.injEq]; omega
      · simp only [reduceCtorEq, false_iff]; omega

theorem hexVal_append (n : Nat) (s t : Str) : hexVal n (s ++ t) = (hexVal n s).bind fun m => hexVal m t := by
  induction s generalizing n with
  | nil => rfl
  | cons c r ih =>
    simp only [List.cons_append, hexVal]
    cases hexDig c with
    | none => rfl
    | some d => simp [ih]

theorem hexDigits_iff (s : Str) (n : Nat) : HexDigits s n ↔ s ≠ [] ∧ hexVal 0 s = some n := by
  constructor
  · intro h
    induction h with
    | one c d h => exact ⟨by simp, by simp [hexVal, (hexDig_iff c d).2 h]⟩
    | more s n c d h hs ih => exact ⟨by simp, by rw [hexVal_append, ih.2]; simp [hexVal, (hexDig_iff c d).2 h]⟩
  · rintro ⟨h1, h2⟩
    generalize hl : s.length = l
    induction l generalizing s n with
    | zero => exact absurd (List.eq_nil_of_length_eq_zero hl) h1
    | succ l ih =>
      rcases List.eq_nil_or_concat s with rfl | ⟨t, c, rfl⟩
      · exact absurd rfl h1
      · rw [List.concat_eq_append] at *
        rw [hexVal_append] at h2
        cases hm : hexVal 0 t with
        | none => rw [hm] at h2; cases h2
        | some m =>
          rw [hm] at h2
          simp only [Option.bind_some, hexVal] at h2
          cases hd : hexDig c with
          | none => rw [hd] at h2; cases h2
          | some d =>
            rw [hd] at h2
            simp only [Option.bind_some, Option.some.injEq] at h2
            subst h2
            cases t with
            | nil =>
              simp only [hexVal, Option.some.injEq] at hm
              subst hm
              simpa using HexDigits.one c d ((hexDig_iff c d).1 hd)
            | cons x t => exact .more _ _ c d ((hexDig_iff c d).1 hd) (ih _ _ (by simp) hm (by simpa using hl))

theorem lexHex_iff (a b : Char) (r : Str) (n : Nat) : lexHex (a :: b :: r) = some n ↔ HexDigits r n ∧ n < 2 ^ 64 := by
  rw [hexDigits_iff]
  unfold lexHex
  simp only [List.drop_succ_cons, List.drop_zero]
  split
  · rename_i h; simp [h]
  · rename_i h
    cases hexVal 0 r with
    | none => simp
    | some m =>
      simp only [Option.bind_some, Option.some.injEq]
      split
      · rename_i hlt
        simp only [Option.some.injEq]
        constructor
        · rintro rfl; exact ⟨⟨h, rfl⟩, hlt⟩
        · rintro ⟨⟨_, rfl⟩, _⟩; rfl
      · rename_i hlt
        simp only [reduceCtorEq, false_iff]
        rintro ⟨⟨_, rfl⟩, h3⟩; exact hlt h3

theorem isPrefix2 (a b : Char) (s : Str) : [a, b].isPrefixOf s = true ↔ ∃ r, s = a :: b :: r := by
  constructor
  · intro h
    obtain ⟨r, rfl⟩ := List.isPrefixOf_iff_prefix.1 h
    exact ⟨r, rfl⟩
  · rintro ⟨r, rfl⟩
    exact List.isPrefixOf_iff_prefix.2 ⟨r, rfl⟩

theorem not_digits_x {c : Char} (hc : c = 'x' ∨ c = 'X') (r : Str) (n : Nat) : ¬ Digits ('0' :: c :: r) n := by
  intro h
  have h2 := ((digits_iff _ _).1 h).2.1
  rcases hc with rfl | rfl <;> simp [isDigit] at h2

theorem lexOffset_plain {s : Str} (hs : s.head? ≠ some '-') (n : Nat) : lexOffset s = some n ↔ Offset s n := by
  unfold lexOffset Offset
  split
  · rename_i h
    rw [isPrefix2, isPrefix2] at h
    have key : ∀ c : Char, (c = 'x' ∨ c = 'X') → ∀ r : Str, (lexHex ('0' :: c :: r) = some n ↔
        (n < 2 ^ 64 ∧ ∃ t, ('0' :: c :: r = '0' :: 'x' :: t ∨ '0' :: c :: r = '0' :: 'X' :: t) ∧ HexDigits t n) ∨ Numeral ('0' :: c :: r) n) := by
      intro c hc r
      rw [lexHex_iff]
      constructor
      · rintro ⟨h1, h2⟩
        exact .inl ⟨h2, r, by rcases hc with rfl | rfl <;> simp, h1⟩
      · rintro (⟨h1, t, ht, h2⟩ | ⟨h1, h2 | ⟨t, h2, _⟩⟩)
        · have : r = t := by rcases ht with h | h <;> (simp only [List.cons.injEq] at h; exact h.2.2)
          subst this; exact ⟨h2, h1⟩
        · exact absurd h2 (not_digits_x hc r n)
        · cases h2
    rcases h with ⟨r, rfl⟩ | ⟨r, rfl⟩
    · exact key 'x' (.inl rfl) r
    · exact key 'X' (.inr rfl) r
  · rename_i h
    rw [isPrefix2, isPrefix2] at h
    rw [lexSize_plain hs]
    constructor
    · exact .inr
    · rintro (⟨_, r, hr | hr, _⟩ | h2)
      · exact absurd (.inl ⟨r, hr⟩) h
      · exact absurd (.inr ⟨r, hr⟩) h
      · exact h2

/-! ## Settings -/

theorem setting_nil (k : Str) (R : Str → Nat → Prop) (d n : Nat) : Setting k R d [] n ↔ n = d := by
  simp [Setting]

theorem setting_other {k k' v : Str} (h : k' ≠ k) (R : Str → Nat → Prop) (d : Nat) (r : List (Str × Str)) (n : Nat) :
    Setting k R d ((k', v) :: r) n ↔ Setting k R d r n := by
  unfold Setting
  constructor
  · rintro (⟨h1, h2⟩ | ⟨pre, t, post, h1, h2, h3⟩)
    · exact .inl ⟨fun x hx => h1 x (List.mem_cons_of_mem _ hx), h2⟩
    · cases pre with
      | nil => simp only [List.nil_append, List.cons.injEq, Prod.mk.injEq] at h1; exact absurd h1.1.1 h
      | cons y pre =>
        simp only [List.cons_append, List.cons.injEq] at h1
        exact .inr ⟨pre, t, post, h1.2, h2, h3⟩
  · rintro (⟨h1, h2⟩ | ⟨pre, t, post, h1, h2, h3⟩)
    · refine .inl ⟨fun x hx => ?_, h2⟩
      rcases List.mem_cons.1 hx with rfl | hx
      · exact h
      · exact h1 x hx
    · exact .inr ⟨(k', v) :: pre, t, post, by rw [h1]; rfl, h2, h3⟩

theorem setting_same {k v : Str} (R : Str → Nat → Prop) {m : Nat} (hm : ∀ n, R v n ↔ n = m) (d : Nat) (r : List (Str × Str)) (n : Nat) :
    Setting k R d ((k, v) :: r) n ↔ Setting k R m r n := by
  unfold Setting
  constructor
  · rintro (⟨h1, h2⟩ | ⟨pre, t, post, h1, h2, h3⟩)
    · exact absurd rfl (h1 (k, v) (by simp))
    · cases pre with
      | nil =>
        simp only [List.nil_append, List.cons.injEq, Prod.mk.injEq] at h1
        obtain ⟨⟨_, rfl⟩, rfl⟩ := h1
        exact .inl ⟨h2, (hm n).1 h3⟩
      | cons y pre =>
        simp only [List.cons_append, List.cons.injEq] at h1
        exact .inr ⟨pre, t, post, h1.2, h2, h3⟩
  · rintro (⟨h1, h2⟩ | ⟨pre, t, post, h1, h2, h3⟩)
    · exact .inr ⟨[], v, r, rfl, h1, (hm n).2 h2⟩
    · exact .inr ⟨(k, v) :: pre, t, post, by rw [h1]; rfl, h2, h3⟩

theorem valued_nil (k : Str) (R : Str → Nat → Prop) : Valued k R [] := fun _ h => by simp at h

theorem valued_other {k k' v : Str} (h : k' ≠ k) (R : Str → Nat → Prop) (r : List (Str × Str)) :
    Valued k R ((k', v) :: r) ↔ Valued k R r := by
  unfold Valued
  constructor
  · exact fun hv x hx => hv x (List.mem_cons_of_mem _ hx)
  · intro hv x hx hk
    rcases List.mem_cons.1 hx with rfl | hx
    · exact absurd hk h
    · exact hv x hx hk

theorem valued_same {k v : Str} (R : Str → Nat → Prop) (r : List (Str × Str)) :
    Valued k R ((k, v) :: r) ↔ (∃ n, R v n) ∧ Valued k R r := by
  unfold Valued
  constructor
  · exact fun hv => ⟨hv (k, v) (by simp) rfl, fun x hx => hv x (List.mem_cons_of_mem _ hx)⟩
  · rintro ⟨h1, h2⟩ x hx hk
    rcases List.mem_cons.1 hx with rfl | hx
    · exact h1
    · exact h2 x hx hk

/-- No argument of this name begins with a minus sign. -/
def Unsigned (k : Str) (args : List (Str × Str)) : Prop := ∀ x ∈ args, x.1 = k → x.2.head? ≠ some '-'

theorem Unsigned.tail {k : Str} {x : Str × Str} {r : List (Str × Str)} (h : Unsigned k (x :: r)) : Unsigned k r :=
  fun y hy => h y (List.mem_cons_of_mem _ hy)

theorem numeral_val {v : Str} {m : Nat} (hv : v.head? ≠ some '-') (h : lexSize v = some m) (n : Nat) : Numeral v n ↔ n = m := by
  rw [← lexSize_plain hv, h]
  simp [eq_comm]

theorem numeral_none {v : Str} (hv : v.head? ≠ some '-') (h : lexSize v = none) : ¬ ∃ n, Numeral v n := by
  rintro ⟨n, hn⟩
  rw [← lexSize_plain hv, h] at hn
  cases hn

theorem offset_val {v : Str} {m : Nat} (hv : v.head? ≠ some '-') (h : lexOffset v = some m) (n : Nat) : Offset v n ↔ n = m := by
  rw [← lexOffset_plain hv, h]
  simp [eq_comm]

theorem offset_none {v : Str} (hv : v.head? ≠ some '-') (h : lexOffset v = none) : ¬ ∃ n, Offset v n := by
  rintro ⟨n, hn⟩
  rw [← lexOffset_plain hv, h] at hn
  cases hn

/-! ## UDP -/

/-- The name of the setting. -/
def kMax : Str := "max_payload_size".toList

theorem udpArgs_ok (d : Nat) (args : List (Str × Str)) (hu : Unsigned kMax args) (n : Nat) :
    udpArgs d args = .ok n ↔ (∀ x ∈ args, x.1 = kMax) ∧ Valued kMax Numeral args ∧ Setting kMax Numeral d args n := by
  induction args generalizing d with
  | nil =>
    rw [setting_nil]
    simp [udpArgs, valued_nil, eq_comm]
  | cons x r ih =>
    obtain ⟨k, v⟩ := x
    simp only [udpArgs, show "max_payload_size".toList = kMax from rfl]
    by_cases hk : k = kMax
    · subst hk
      have hv := hu (kMax, v) (by simp) rfl
      rw [if_pos rfl, valued_same]
      cases hl : lexSize v with
      | none =>
        simp only [reduceCtorEq, false_iff]
        rintro ⟨_, ⟨h, _⟩, _⟩
        exact numeral_none hv hl h
      | some m =>
        simp only [ih m hu.tail, setting_same Numeral (numeral_val hv hl)]
        constructor
        · rintro ⟨h1, h2, h3⟩
          exact ⟨fun x hx => (List.mem_cons.1 hx).elim (fun h => by rw [h]) (h1 x), ⟨⟨m, (numeral_val hv hl m).2 rfl⟩, h2⟩, h3⟩
        · rintro ⟨h1, ⟨_, h2⟩, h3⟩
          exact ⟨fun x hx => h1 x (List.mem_cons_of_mem _ hx), h2, h3⟩
    · rw [if_neg hk]
      simp only [reduceCtorEq, false_iff]
      rintro ⟨h1, _⟩
      exact hk (h1 (k, v) (by simp))

/-- **C67, UDP.** A UDP client is made exactly if the host is found, the arguments are numerals for `max_payload_size`, and there is memory; it then has the
endpoint, the maximum (1400 bytes if nothing is said) and the memory for replies. `_partial`: no minus signs. -/
theorem C67_udp_partial (w : World) (v : Ver) (u : Uri) (hu : Unsigned kMax u.arguments) (cl : Client) :
    makeUdp w v u = .ok cl ↔ ∃ ep n, w.udp4 u.hostname u.port = some ep ∧ (∀ x ∈ u.arguments, x.1 = kMax) ∧ Valued kMax Numeral u.arguments ∧
      Setting kMax Numeral 1400 u.arguments n ∧ w.room ((n + 20) % 2 ^ 64) = true ∧ cl = .udp v ep n ((n + 20) % 2 ^ 64) := by
  unfold makeUdp
  cases w.udp4 u.hostname u.port with
  | none => simp
  | some ep =>
    simp only [Option.some.injEq]
    cases ha : udpArgs 1400 u.arguments with
    | error e =>
      simp only [inBody, reduceCtorEq, false_iff]
      rintro ⟨_, n, _, h1, h2, h3, _⟩
      rw [(udpArgs_ok 1400 _ hu n).2 ⟨h1, h2, h3⟩] at ha
      cases ha
    | ok n =>
      obtain ⟨h1, h2, h3⟩ := (udpArgs_ok 1400 _ hu n).1 ha
      have hn : ∀ n', Setting kMax Numeral 1400 u.arguments n' → n' = n := by
        intro n' h
        have := (udpArgs_ok 1400 _ hu n').2 ⟨h1, h2, h⟩
        rw [ha] at this
        cases this; rfl
      dsimp only
      split
      · rename_i hr
        simp only [inBody, Made.ok.injEq]
        constructor
        · rintro rfl; exact ⟨ep, n, rfl, h1, h2, h3, hr, rfl⟩
        · rintro ⟨_, n', rfl, _, _, h, _, rfl⟩; rw [hn n' h]
      · rename_i hr
        simp only [inBody, reduceCtorEq, false_iff]
        rintro ⟨_, n', _, _, _, h, h4, _⟩
        rw [hn n' h] at h4; exact hr h4

theorem tcpArgs_ok (d : Nat) (args : List (Str × Str)) (hu : Unsigned kMax args) (n : Nat) :
    tcpArgs d args = .ok n ↔ Valued kMax Numeral args ∧ Setting kMax Numeral d args n := by
  induction args generalizing d with
  | nil =>
    rw [setting_nil]
    simp [tcpArgs, valued_nil, eq_comm]
  | cons x r ih =>
    obtain ⟨k, v⟩ := x
    simp only [tcpArgs, show "max_payload_size".toList = kMax from rfl]
    by_cases hk : k = kMax
    · subst hk
      have hv := hu (kMax, v) (by simp) rfl
      rw [if_pos rfl, valued_same]
      cases hl : lexSize v with
      | none =>
        simp only [reduceCtorEq, false_iff]
        rintro ⟨⟨h, _⟩, _⟩
        exact numeral_none hv hl h
      | some m =>
        simp only [ih m hu.tail, setting_same Numeral (numeral_val hv hl)]
        constructor
        · rintro ⟨h2, h3⟩
          exact ⟨⟨⟨m, (numeral_val hv hl m).2 rfl⟩, h2⟩, h3⟩
        · rintro ⟨⟨_, h2⟩, h3⟩
          exact ⟨h2, h3⟩
    · rw [if_neg hk, ih d hu.tail, setting_other hk, valued_other hk]

theorem setting_unique {args : List (Str × Str)} (hu : Unsigned kMax args) {d n n' : Nat} (hv : Valued kMax Numeral args)
    (h : Setting kMax Numeral d args n) (h' : Setting kMax Numeral d args n') : n' = n := by
  have h1 := (tcpArgs_ok d _ hu n).2 ⟨hv, h⟩
  have h2 := (tcpArgs_ok d _ hu n').2 ⟨hv, h'⟩
  rw [h1] at h2
  cases h2; rfl

/-- The part of the constructor of `TCP` behind the resolver. -/
theorem tcpBody_ok (args : List (Str × Str)) (hu : Unsigned kMax args) (f : Nat → Client) (cl : Client) :
    inBody (match tcpArgs 1400 args with
      | .error e => .error e
      | .ok n => .ok (f n)) = .ok cl ↔ Valued kMax Numeral args ∧ ∃ n, Setting kMax Numeral 1400 args n ∧ cl = f n := by
  cases ha : tcpArgs 1400 args with
  | error e =>
    simp only [inBody, reduceCtorEq, false_iff]
    rintro ⟨h1, n, h2, _⟩
    rw [(tcpArgs_ok 1400 _ hu n).2 ⟨h1, h2⟩] at ha
    cases ha
  | ok n =>
    obtain ⟨h1, h2⟩ := (tcpArgs_ok 1400 _ hu n).1 ha
    simp only [inBody, Made.ok.injEq]
    constructor
    · rintro rfl; exact ⟨h1, n, h2, rfl⟩
    · rintro ⟨_, n', h, rfl⟩; rw [setting_unique hu h1 h2 h]

/-- **C67, TCP.** The same without ControlHub over TCP; arguments of other names are ignored. `_partial`: no minus signs. -/
theorem C67_tcp_partial (w : World) (v : Ver) (u : Uri) (hu : Unsigned kMax u.arguments) (cl : Client) :
    makeTcp w v u = .ok cl ↔ ∃ eps n, w.tcp u.hostname u.port = some eps ∧ Valued kMax Numeral u.arguments ∧
      Setting kMax Numeral 1400 u.arguments n ∧ cl = .tcp v eps n := by
  unfold makeTcp
  cases w.tcp u.hostname u.port with
  | none => simp
  | some eps =>
    simp only [Option.some.injEq, exists_and_left, exists_eq_left']
    exact tcpBody_ok _ hu (fun n => .tcp v eps n) cl

/-! ## ControlHub -/

/-- The name of the argument. -/
def kTarget : Str := "target".toList

theorem find_first (args : List (Str × Str)) (v : Str) : (args.find? fun x => x.1 = kTarget) = some (kTarget, v) ↔ First kTarget args v := by
  rw [List.find?_eq_some_iff_append]
  unfold First
  simp only [decide_eq_true_eq, Bool.not_eq_eq_eq_not, Bool.not_true, decide_eq_false_iff_not]
  constructor
  · rintro ⟨_, pre, post, h1, h2⟩; exact ⟨pre, post, h1, h2⟩
  · rintro ⟨pre, post, h1, h2⟩; exact ⟨trivial, pre, post, h1, h2⟩

theorem many_all {s : Str} (h : NoSp s) : (Uri.many (fun _ => false) s).1 = s := by
  induction s with
  | nil => rfl
  | cons c r ih => simp [Uri.many, h c (by simp), ih (fun x hx => h x (List.mem_cons_of_mem _ hx))]

/-- Host and service are separated by the first colon. -/
theorem hostPort_iff {s : Str} (h : NoSp s) (a b : Str) : hostPort s = some (a, b) ↔ s = a ++ ':' :: b ∧ ':' ∉ a := by
  have fwd : ∀ a b : Str, s = a ++ ':' :: b → ':' ∉ a → hostPort s = some (a, b) := by
    rintro a b rfl hc
    have h1 : Uri.many (Uri.at_ [':']) (a ++ ':' :: b) = (a, ':' :: b) := by
      refine Uri.many_part (fun c => [':'].contains c) (fun c hx => ⟨h c (by simp [hx]), ?_⟩) (fun c hx => h c (by simp_all)) ?_
      · simp only [List.contains_eq_mem, List.mem_singleton, decide_eq_false_iff_not]
        rintro rfl; exact hc hx
      · intro c hx; simp at hx; subst hx; rfl
    have hb : NoSp b := fun c hx => h c (by simp [hx])
    have hcb : NoSp (':' :: b) := fun c hx => h c (by simp at hx ⊢; rcases hx with h | h <;> simp [h])
    simp only [hostPort, h1, Uri.lit1_cons hcb, many_all hb]
  constructor
  · intro hp
    by_cases hc : ':' ∈ s
    · obtain ⟨x, y, hxy, hx⟩ : ∃ x y, s = x ++ ':' :: y ∧ ':' ∉ x := by
        clear h fwd hp
        induction s with
        | nil => simp at hc
        | cons c r ih =>
          by_cases hcc : c = ':'
          · exact ⟨[], r, by rw [hcc]; rfl, by simp⟩
          · obtain ⟨x, y, h1, h2⟩ := ih (by simpa [Ne.symm hcc] using hc)
            exact ⟨c :: x, y, by rw [h1]; rfl, by simp [h2, Ne.symm hcc]⟩
      rw [fwd x y hxy hx] at hp
      cases hp
      exact ⟨hxy, hx⟩
    · have h1 : Uri.many (Uri.at_ [':']) (s ++ []) = (s, []) := by
        refine Uri.many_part (fun c => [':'].contains c) (fun c hx => ⟨h c hx, ?_⟩) (fun c hx => by simp at hx) (by simp)
        simp only [List.contains_eq_mem, List.mem_singleton, decide_eq_false_iff_not]
        rintro rfl; exact hc hx
      rw [List.append_nil] at h1
      have h2 : Uri.lit [':'] [] = none := rfl
      simp [hostPort, h1, h2] at hp
  · rintro ⟨h1, h2⟩; exact fwd a b h1 h2

/-- Decimal digits of a byte. -/
theorem byte_digits (x : BitVec 8) : Nat.toDigits 10 x.toNat ≠ [] ∧ (Nat.toDigits 10 x.toNat).all isDigit = true ∧
    decVal (Nat.toDigits 10 x.toNat) = x.toNat := by
  revert x
  decide +kernel

theorem digit_not_space {c : Char} (h : isDigit c = true) : Uri.space c = false := by
  have := isDigit_iff.1 h
  simp only [Uri.space, decide_eq_false_iff_not]
  rintro (rfl | h)
  · exact absurd this (by decide)
  · omega

/-- A number in front of something that is not a digit. -/
theorem uintP_byte (x : BitVec 8) (r : Str) (hr : ∀ c, r.head? = some c → isDigit c = false) :
    uintP (Nat.toDigits 10 x.toNat ++ r) = some (x.toNat, r) := by
  obtain ⟨h1, h2, h3⟩ := byte_digits x
  have htw : ∀ s : Str, s.all isDigit = true → (s ++ r).takeWhile isDigit = s ∧ (s ++ r).dropWhile isDigit = r := by
    intro s
    induction s with
    | nil =>
      intro _
      cases r with
      | nil => exact ⟨rfl, rfl⟩
      | cons c r => simp [List.takeWhile, List.dropWhile, hr c rfl]
    | cons c s ih =>
      intro h
      simp only [List.all_cons, Bool.and_eq_true] at h
      simp [List.takeWhile, List.dropWhile, h.1, ih h.2]
  have hs : Uri.skip (Nat.toDigits 10 x.toNat ++ r) = Nat.toDigits 10 x.toNat ++ r := by
    cases hd : Nat.toDigits 10 x.toNat with
    | nil => exact absurd hd h1
    | cons c s =>
      rw [hd] at h2
      simp only [List.all_cons, Bool.and_eq_true] at h2
      simp [Uri.skip, digit_not_space h2.1]
  obtain ⟨h4, h5⟩ := htw _ h2
  unfold uintP
  simp only [hs, h4, h5, h3]
  rw [if_neg]
  have := x.isLt
  simp only [h1, false_or]
  omega

theorem lit_dot (r : Str) : Uri.lit ['.'] ('.' :: r) = some r := by
  simp [Uri.lit, Uri.skip, Uri.space, List.dropWhile, List.isPrefixOf]

/-- The address is read back from its text. -/
theorem quad_text (e : Ep) : quad e.text = some [e.a.toNat, e.b.toNat, e.c.toNat, e.d.toNat] := by
  have hdot : ∀ r : Str, ∀ c, ('.' :: r).head? = some c → isDigit c = false := by
    intro r c h; simp at h; subst h; rfl
  have hend : ∀ c, ([] : Str).head? = some c → isDigit c = false := by intro c h; simp at h
  have h4 : uintP (Nat.toDigits 10 e.d.toNat) = some (e.d.toNat, []) := by
    have := uintP_byte e.d [] hend
    rwa [List.append_nil] at this
  unfold quad Ep.text
  simp only [List.append_assoc, List.cons_append]
  simp [uintP_byte _ _ (hdot _), lit_dot, h4]

/-- The number of an address. -/
def Ep.ip (e : Ep) : Nat := e.a.toNat * 16777216 + e.b.toNat * 65536 + e.c.toNat * 256 + e.d.toNat

theorem or_add (x y k : Nat) (h : y < 2 ^ k) : x * 2 ^ k ||| y = x * 2 ^ k + y := by
  rw [← Nat.shiftLeft_eq, ← Nat.shiftLeft_add_eq_or_of_lt h]

theorem byte_shift (x k : Nat) (hx : x < 2 ^ 8) (hk : k ≤ 24) : x % 2 ^ 32 * 2 ^ k % 2 ^ 32 = x * 2 ^ k := by
  have h1 : x < 2 ^ 32 := Nat.lt_of_lt_of_le hx (Nat.pow_le_pow_right (by decide) (by decide))
  have h2 : x * 2 ^ k < 2 ^ 8 * 2 ^ k := Nat.mul_lt_mul_of_pos_right hx (Nat.two_pow_pos k)
  have h3 : 2 ^ 8 * 2 ^ k ≤ 2 ^ 32 := by rw [← Nat.pow_add]; exact Nat.pow_le_pow_right (by decide) (by omega)
  rw [Nat.mod_eq_of_lt h1, Nat.mod_eq_of_lt (Nat.lt_of_lt_of_le h2 h3)]

theorem byte_lt (x k m : Nat) (hx : x < 2 ^ 8) (h : 8 + k = m) : x * 2 ^ k < 2 ^ m := by
  rw [← h, Nat.pow_add]
  exact Nat.mul_lt_mul_of_pos_right hx (Nat.two_pow_pos k)

theorem ip_number (a b c d : BitVec 8) : (BitVec.ofNat 32 a.toNat <<< 24 ||| BitVec.ofNat 32 b.toNat <<< 16 ||| BitVec.ofNat 32 c.toNat <<< 8 |||
    BitVec.ofNat 32 d.toNat).toNat = a.toNat * 16777216 + b.toNat * 65536 + c.toNat * 256 + d.toNat := by
  have ha := a.isLt; have hb := b.isLt; have hc := c.isLt; have hd := d.isLt
  simp only [BitVec.toNat_or, BitVec.toNat_shiftLeft, BitVec.toNat_ofNat, Nat.shiftLeft_eq]
  rw [byte_shift _ 24 ha (by decide), byte_shift _ 16 hb (by decide), byte_shift _ 8 hc (by decide),
    Nat.mod_eq_of_lt (Nat.lt_of_lt_of_le hd (Nat.pow_le_pow_right (by decide) (by decide) : 2 ^ 8 ≤ 2 ^ 32)),
    or_add _ _ 24 (byte_lt _ 16 24 hb rfl)]
  have g2 : a.toNat * 2 ^ 24 + b.toNat * 2 ^ 16 = (a.toNat * 256 + b.toNat) * 2 ^ 16 := by
    rw [Nat.add_mul, Nat.mul_assoc]
  rw [g2, or_add _ _ 16 (byte_lt _ 8 16 hc rfl)]
  have g3 : (a.toNat * 256 + b.toNat) * 2 ^ 16 + c.toNat * 2 ^ 8 = (a.toNat * 65536 + b.toNat * 256 + c.toNat) * 2 ^ 8 := by
    rw [Nat.add_mul, Nat.add_mul, Nat.add_mul, Nat.mul_assoc, Nat.mul_assoc, Nat.mul_assoc]
  rw [g3, or_add _ _ 8 hd, Nat.add_mul, Nat.add_mul, Nat.mul_assoc, Nat.mul_assoc]

theorem htonl_htonl (x : W) : htonl (htonl x) = x := by
  apply BitVec.eq_of_toNat_eq
  obtain ⟨a, b, c, d, ha, hb, hc, hd, hx, e0, e1, e2, e3⟩ := Verif.digits _ x.isLt
  obtain ⟨u0, u1, u2, u3⟩ := undigits a b c d hb hc hd
  have hh : (htonl x).toNat = a * 16777216 + b * 65536 + c * 256 + d := by rw [htonl_toNat, e0, e1, e2, e3]
  rw [htonl_toNat, hh, u0, u1, u2, u3, hx]
  omega

theorem bswap16_bswap16 (x : BitVec 16) : bswap16 (bswap16 x) = x := by
  apply BitVec.eq_of_toNat_eq
  rw [bswap16_toNat, bswap16_toNat]
  have := x.isLt
  omega

/-- The words that a client stores, and what the ControlHub reads. -/
theorem hubAddr_stored (x : W) (p : BitVec 16) (ip : W) (port : BitVec 16) :
    hubAddr ip port = ⟨x.toNat, p.toNat⟩ ↔ ip = htonl x ∧ port = bswap16 p := by
  unfold hubAddr
  simp only [TraMgr.Addr.mk.injEq]
  constructor
  · rintro ⟨h1, h2⟩
    have e1 : htonl ip = x := BitVec.eq_of_toNat_eq h1
    have e2 : bswap16 port = p := BitVec.eq_of_toNat_eq h2
    exact ⟨by rw [← e1, htonl_htonl], by rw [← e2, bswap16_bswap16]⟩
  · rintro ⟨rfl, rfl⟩
    rw [htonl_htonl, bswap16_bswap16]
    exact ⟨rfl, rfl⟩

theorem extractTarget_ok (w : World) (u : Uri) (hs : ∀ x ∈ u.arguments, NoSp x.2) (x : W) (p : BitVec 16) :
    extractTarget w u = .ok (x, p) ↔ ∃ t host service ep, First kTarget u.arguments t ∧ t = host ++ ':' :: service ∧ ':' ∉ host ∧
      w.udp4 host service = some ep ∧ x.toNat = ep.ip ∧ p = ep.port := by
  unfold extractTarget
  simp only [show "target".toList = kTarget from rfl]
  cases hf : u.arguments.find? fun x => x.1 = kTarget with
  | none =>
    simp only [reduceCtorEq, false_iff]
    rintro ⟨t, _, _, _, h, _⟩
    rw [(find_first _ _).2 h] at hf
    cases hf
  | some y =>
    obtain ⟨k, t⟩ := y
    have hk : k = kTarget := by simpa using List.find?_some hf
    subst hk
    have ht : NoSp t := hs (kTarget, t) (List.mem_of_find?_eq_some hf)
    have h1 := (find_first _ _).1 hf
    have huniq : ∀ t', First kTarget u.arguments t' → t' = t := by
      intro t' h
      rw [(find_first _ _).2 h] at hf
      cases hf; rfl
    dsimp only
    cases hh : hostPort t with
    | none =>
      simp only [reduceCtorEq, false_iff]
      rintro ⟨t', a, b, _, h2, h3, h4, _⟩
      rw [huniq t' h2] at h3
      rw [(hostPort_iff ht a b).2 ⟨h3, h4⟩] at hh
      cases hh
    | some hp =>
      obtain ⟨a, b⟩ := hp
      obtain ⟨h2, h3⟩ := (hostPort_iff ht a b).1 hh
      have hab : ∀ t' a' b', First kTarget u.arguments t' → t' = a' ++ ':' :: b' → ':' ∉ a' → a' = a ∧ b' = b := by
        intro t' a' b' g1 g2 g3
        rw [huniq t' g1] at g2
        rw [(hostPort_iff ht a' b').2 ⟨g2, g3⟩] at hh
        cases hh; exact ⟨rfl, rfl⟩
      dsimp only
      cases he : w.udp4 a b with
      | none =>
        simp only [reduceCtorEq, false_iff]
        rintro ⟨t', a', b', ep, g1, g2, g3, g4, _⟩
        obtain ⟨rfl, rfl⟩ := hab t' a' b' g1 g2 g3
        rw [he] at g4; cases g4
      | some ep =>
        simp only [quad_text, Except.ok.injEq, Prod.mk.injEq]
        constructor
        · rintro ⟨rfl, rfl⟩
          exact ⟨t, a, b, ep, h1, h2, h3, he, ip_number _ _ _ _, rfl⟩
        · rintro ⟨t', a', b', ep', g1, g2, g3, g4, g5, rfl⟩
          obtain ⟨rfl, rfl⟩ := hab t' a' b' g1 g2 g3
          rw [he] at g4; cases g4
          refine ⟨?_, rfl⟩
          apply BitVec.eq_of_toNat_eq
          rw [g5, ip_number]; rfl

/-- **C67, ControlHub.** A client of a ControlHub is made exactly if the first argument `target` has the form host:service and is found, the host of the ControlHub
is found, and the values of `max_payload_size` are numerals. What it writes into its messages as the target is, for the ControlHub, the address and port that were found.
`_partial`: no minus signs. (That arguments have no white space is what the parser of URIs guarantees, `parse_allowed`.) -/
theorem C67_hub_partial (w : World) (v : Ver) (u : Uri) (hs : ∀ x ∈ u.arguments, NoSp x.2) (hu : Unsigned kMax u.arguments) (cl : Client) :
    makeHub w v u = .ok cl ↔ ∃ t host service ep eps n ip port, First kTarget u.arguments t ∧ t = host ++ ':' :: service ∧ ':' ∉ host ∧
      w.udp4 host service = some ep ∧ w.tcp u.hostname u.port = some eps ∧ Valued kMax Numeral u.arguments ∧ Setting kMax Numeral 1400 u.arguments n ∧
      hubAddr ip port = ⟨ep.ip, ep.port.toNat⟩ ∧ cl = .hub v eps n ip port := by
  unfold makeHub
  cases hx : extractTarget w u with
  | error e =>
    simp only [reduceCtorEq, false_iff]
    rintro ⟨t, a, b, ep, eps, n, ip, port, g1, g2, g3, g4, _⟩
    have hl : ep.ip < 2 ^ 32 := by
      rw [Ep.ip, ← ip_number]; exact BitVec.isLt _
    have := (extractTarget_ok w u hs (BitVec.ofNat 32 ep.ip) ep.port).2
      ⟨t, a, b, ep, g1, g2, g3, g4, by rw [BitVec.toNat_ofNat, Nat.mod_eq_of_lt hl], rfl⟩
    rw [this] at hx
    cases hx
  | ok xp =>
    obtain ⟨x, p⟩ := xp
    obtain ⟨t, a, b, ep, g1, g2, g3, g4, g5, rfl⟩ := (extractTarget_ok w u hs x p).1 hx
    dsimp only
    cases ht : w.tcp u.hostname u.port with
    | none =>
      simp only [reduceCtorEq, false_iff]
      rintro ⟨_, _, _, _, _, _, _, _, _, _, _, _, h, _⟩
      cases h
    | some eps =>
      dsimp only
      refine Iff.trans (tcpBody_ok _ hu (fun n => .hub v eps n (htonl x) (bswap16 ep.port)) cl) ?_
      constructor
      · rintro ⟨h1, n, h2, rfl⟩
        refine ⟨t, a, b, ep, eps, n, _, _, g1, g2, g3, g4, rfl, h1, h2, ?_, rfl⟩
        rw [← g5]
        exact (hubAddr_stored x ep.port _ _).2 ⟨rfl, rfl⟩
      · rintro ⟨t', a', b', ep', eps', n, ip, port, k1, k2, k3, k4, k5, k6, k7, k8, rfl⟩
        cases k5
        refine ⟨k6, n, k7, ?_⟩
        have hl : ep'.ip < 2 ^ 32 := by
          rw [Ep.ip, ← ip_number]; exact BitVec.isLt _
        have := (extractTarget_ok w u hs (BitVec.ofNat 32 ep'.ip) ep'.port).2
          ⟨t', a', b', ep', k1, k2, k3, k4, by rw [BitVec.toNat_ofNat, Nat.mod_eq_of_lt hl], rfl⟩
        rw [hx] at this
        simp only [Except.ok.injEq, Prod.mk.injEq] at this
        obtain ⟨rfl, hp⟩ := this
        have hh : hubAddr ip port = ⟨(BitVec.ofNat 32 ep'.ip).toNat, ep'.port.toNat⟩ := by
          rw [k8, BitVec.toNat_ofNat, Nat.mod_eq_of_lt hl]
        obtain ⟨rfl, rfl⟩ := (hubAddr_stored _ _ _ _).1 hh
        rw [hp]

/-- Numeric addresses and ports are found as what they say. -/
def NumericNames (w : World) : Prop := ∀ e : Ep, w.udp4 e.text (Nat.toDigits 10 e.port.toNat) = some e

/-- A target as a user writes it: `10.0.0.1:50001`. -/
def Ep.target (e : Ep) : Str := e.text ++ ':' :: Nat.toDigits 10 e.port.toNat

theorem toDigits_digit (n : Nat) (c : Char) (h : c ∈ Nat.toDigits 10 n) : isDigit c = true := by
  have := Nat.isDigit_of_mem_toDigits (b := 10) (by decide) (by decide) h
  simp only [Char.isDigit, Bool.and_eq_true, decide_eq_true_eq] at this
  rw [isDigit_iff]
  exact this

theorem text_chars (e : Ep) (c : Char) (h : c ∈ e.text) : isDigit c = true ∨ c = '.' := by
  simp only [Ep.text, List.append_assoc, List.cons_append, List.mem_append, List.mem_cons] at h
  rcases h with h | h | h | h | h | h | h
  all_goals first | exact .inr h | exact .inl (toDigits_digit _ _ h)

/-- **C67, numeric target.** For every IPv4 address and port: a URI whose first argument `target` is this address as text leads to a client whose messages name it to the
ControlHub. -/
theorem C67_numeric_target (w : World) (hw : NumericNames w) (v : Ver) (u : Uri) (hs : ∀ x ∈ u.arguments, NoSp x.2) (hu : Unsigned kMax u.arguments) (e : Ep)
    (ht : First kTarget u.arguments e.target) (eps : List (Str × Nat)) (n : Nat) (ip : W) (port : BitVec 16)
    (h : makeHub w v u = .ok (.hub v eps n ip port)) : hubAddr ip port = ⟨e.ip, e.port.toNat⟩ := by
  obtain ⟨t, a, b, ep, eps', n', ip', port', g1, g2, g3, g4, _, _, _, g5, g6⟩ := (C67_hub_partial w v u hs hu _).1 h
  simp only [Client.hub.injEq, true_and] at g6
  obtain ⟨_, _, rfl, rfl⟩ := g6
  have h1 := (find_first _ _).2 ht
  rw [(find_first _ _).2 g1] at h1
  simp only [Option.some.injEq, Prod.mk.injEq, true_and] at h1
  have hc : ':' ∉ e.text := by
    intro hc
    rcases text_chars e _ hc with h | h
    · exact absurd h (by decide)
    · exact absurd h (by decide)
  have hns : NoSp t := by
    obtain ⟨pre, post, hp, _⟩ := g1
    exact hs (kTarget, t) (by rw [hp]; simp)
  have k1 := (hostPort_iff hns a b).2 ⟨g2, g3⟩
  have k2 := (hostPort_iff hns _ _).2 ⟨h1, hc⟩
  rw [k1] at k2
  simp only [Option.some.injEq, Prod.mk.injEq] at k2
  obtain ⟨rfl, rfl⟩ := k2
  rw [hw e] at g4
  cases g4
  exact g5

open Verif.Spec.Hub (be)

/-- The packet builder of a client whose maximum is not too small. -/
theorem cfg_wf (wrapNeg : Bool) (cl : Client) (c : Cfg) (h : cl.cfg wrapNeg = some c) (n : Nat)
    (hn : (∃ v ep mem, cl = .udp v ep n mem) ∨ (∃ v eps, cl = .tcp v eps n) ∨ ∃ v eps ip port, cl = .hub v eps n ip port) (h1 : 40 ≤ n) (h2 : n < 2 ^ 32) :
    WF c := by
  have hm : (BitVec.ofNat 32 n).toNat = n := by rw [BitVec.toNat_ofNat, Nat.mod_eq_of_lt h2]
  rcases hn with ⟨v, ep, mem, rfl⟩ | ⟨v, eps, rfl⟩ | ⟨v, eps, ip, port, rfl⟩
  all_goals
    simp only [Client.cfg, Option.some.injEq] at h
    subst h
    refine ⟨?_, fun _ => ?_, ?_⟩ <;> cases v <;> simp [Cfg.preambleSize, Cfg.preReply, hm] <;> omega

/-- **C67, messages.** For every IPv4 address and port, every program and transport: each packet of a client made for this numeric target begins with the four bytes of the
address and the two of the port, in the order of the network. -/
theorem C67_message (w : World) (hw : NumericNames w) (v : Ver) (u : Uri) (hs : ∀ x ∈ u.arguments, NoSp x.2) (hu : Unsigned kMax u.arguments) (e : Ep)
    (ht : First kTarget u.arguments e.target) (eps : List (Str × Nat)) (n : Nat) (ip : W) (port : BitVec 16)
    (h : makeHub w v u = .ok (.hub v eps n ip port)) (h1 : 40 ≤ n) (h2 : n < 4 * 2 ^ 16) (wrapNeg : Bool) (c : Cfg)
    (hc : (Client.hub v eps n ip port).cfg wrapNeg = some c) {τ : Type} (T : Transport τ) (hT : T.Total) (ops : List Op) (hops : ∀ op ∈ ops, op.ok c) (t : τ)
    (rs : List Res) (s : St τ) (hrun : runOps c T ops (St.init t) = some (rs, s)) (b : Buf) (hb : b ∈ s.hist) :
    (wordBytes b.send).take 6 = [e.a.toNat, e.b.toNat, e.c.toNat, e.d.toNat, e.port.toNat / 256, e.port.toNat % 256] := by
  have hwf := cfg_wf wrapNeg _ c hc n (.inr (.inr ⟨v, eps, ip, port, rfl⟩)) h1 (by omega)
  have ha := C67_numeric_target w hw v u hs hu e ht eps n ip port h
  simp only [Client.cfg, Option.some.injEq] at hc
  have hh : c.hub = some (ip, port) := by rw [← hc]
  have hm : c.maxSend.toNat < 4 * 2 ^ 16 := by
    rw [← hc]; simp only [BitVec.toNat_ofNat]
    rw [Nat.mod_eq_of_lt (by omega)]; exact h2
  rw [send_bytes (C24_preamble c T hwf hT ip port hh hm ops hops t rs s hrun b hb).1, ha]
  have k1 := e.a.isLt; have k2 := e.b.isLt; have k3 := e.c.isLt; have k4 := e.d.isLt; have k5 := e.port.isLt
  obtain ⟨u0, u1, u2, u3⟩ := undigits e.a.toNat e.b.toNat e.c.toNat e.d.toNat k2 k3 k4
  rw [TraMgr.be4]
  simp only [TraMgr.be32, Ep.ip, u0, u1, u2, u3, be, List.range_succ, List.range_zero, List.nil_append, List.reverse_append, List.reverse_cons, List.reverse_nil,
    List.map_append, List.map_cons, List.map_nil, List.cons_append, List.take_succ_cons, List.take_zero, Nat.pow_one, Nat.pow_zero, Nat.div_one]
  rw [Nat.mod_eq_of_lt (show e.a.toNat < 256 from k1), Nat.mod_eq_of_lt (show e.port.toNat / 256 < 256 by omega)]

/-! ## PCIe and mmap -/

def kEvents : Str := "events".toList
def kSleep : Str := "sleep".toList
def kInFlight : Str := "max_in_flight".toList
def kPacket : Str := "max_packet_size".toList
def kXdma : Str := "xdma_7series_workaround".toList
def kOffset : Str := "offset".toList

/-- What the arguments of a PCIe client say, given the values so far. -/
def PcieSays (s : PcieS) (args : List (Str × Str)) (t : PcieS) : Prop :=
  ((∀ x ∈ args, x.1 ≠ kEvents) ∧ t.events = s.events ∨ s.events = none ∧ ∃ v, t.events = some v ∧ Once kEvents args (some v)) ∧
  (Valued kSleep Numeral args ∧ Setting kSleep Numeral s.sleep args t.sleep) ∧
  (Valued kInFlight Numeral args ∧ Setting kInFlight Numeral s.inFlight args t.inFlight) ∧
  (Valued kPacket Numeral args ∧ Setting kPacket Numeral s.packet args t.packet) ∧
  (t.workaround = true ↔ s.workaround = true ∨ ∃ x ∈ args, x.1 = kXdma)

theorem once_other {k k' v : Str} (h : k' ≠ k) (r : List (Str × Str)) (o : Option Str) : Once k ((k', v) :: r) o ↔ Once k r o := by
  unfold Once
  constructor
  · rintro (⟨h1, h2⟩ | ⟨pre, t, post, h1, h2, h3, h4⟩)
    · exact .inl ⟨fun x hx => h1 x (List.mem_cons_of_mem _ hx), h2⟩
    · cases pre with
      | nil => simp only [List.nil_append, List.cons.injEq, Prod.mk.injEq] at h1; exact absurd h1.1.1 h
      | cons y pre =>
        simp only [List.cons_append, List.cons.injEq] at h1
        exact .inr ⟨pre, t, post, h1.2, fun x hx => h2 x (List.mem_cons_of_mem _ hx), h3, h4⟩
  · rintro (⟨h1, h2⟩ | ⟨pre, t, post, h1, h2, h3, h4⟩)
    · refine .inl ⟨fun x hx => ?_, h2⟩
      rcases List.mem_cons.1 hx with rfl | hx
      · exact h
      · exact h1 x hx
    · refine .inr ⟨(k', v) :: pre, t, post, by rw [h1]; rfl, fun x hx => ?_, h3, h4⟩
      rcases List.mem_cons.1 hx with rfl | hx
      · exact h
      · exact h2 x hx

theorem once_same {k v t : Str} (r : List (Str × Str)) : Once k ((k, v) :: r) (some t) ↔ t = v ∧ ∀ x ∈ r, x.1 ≠ k := by
  unfold Once
  constructor
  · rintro (⟨h1, h2⟩ | ⟨pre, t', post, h1, h2, h3, h4⟩)
    · cases h2
    · cases pre with
      | nil =>
        simp only [List.nil_append, List.cons.injEq, Prod.mk.injEq] at h1
        obtain ⟨⟨_, rfl⟩, rfl⟩ := h1
        cases h4
        exact ⟨rfl, h3⟩
      | cons y pre =>
        simp only [List.cons_append, List.cons.injEq] at h1
        exact absurd (by rw [← h1.1]) (h2 y (by simp))
  · rintro ⟨rfl, h⟩
    exact .inr ⟨[], t, r, rfl, by simp, h, rfl⟩

theorem none_other {k k' v : Str} (h : k' ≠ k) (r : List (Str × Str)) : (∀ x ∈ (k', v) :: r, x.1 ≠ k) ↔ ∀ x ∈ r, x.1 ≠ k := by
  constructor
  · exact fun h1 x hx => h1 x (List.mem_cons_of_mem _ hx)
  · intro h1 x hx
    rcases List.mem_cons.1 hx with rfl | hx
    · exact h
    · exact h1 x hx

theorem some_other {k k' v : Str} (h : k' ≠ k) (r : List (Str × Str)) : (∃ x ∈ (k', v) :: r, x.1 = k) ↔ ∃ x ∈ r, x.1 = k := by
  simp [h]

/-- No numeric argument of a PCIe or mmap client begins with a minus sign. -/
def UnsignedAll (args : List (Str × Str)) : Prop :=
  Unsigned kSleep args ∧ Unsigned kInFlight args ∧ Unsigned kPacket args ∧ Unsigned kOffset args

theorem UnsignedAll.tail {x : Str × Str} {r : List (Str × Str)} (h : UnsignedAll (x :: r)) : UnsignedAll r :=
  ⟨h.1.tail, h.2.1.tail, h.2.2.1.tail, h.2.2.2.tail⟩

theorem pcieArgs_ok (s : PcieS) (args : List (Str × Str)) (hu : UnsignedAll args) (t : PcieS) : pcieArgs s args = .ok t ↔ PcieSays s args t := by
  induction args generalizing s with
  | nil =>
    obtain ⟨e1, e2, e3, e4, e5⟩ := s
    obtain ⟨f1, f2, f3, f4, f5⟩ := t
    simp only [pcieArgs, PcieSays, setting_nil, valued_nil, true_and, Except.ok.injEq, PcieS.mk.injEq]
    constructor
    · rintro ⟨rfl, rfl, rfl, rfl, rfl⟩
      exact ⟨.inl ⟨by simp, rfl⟩, rfl, rfl, rfl, by simp⟩
    · rintro ⟨h1, rfl, rfl, rfl, h5⟩
      refine ⟨?_, rfl, rfl, rfl, ?_⟩
      · rcases h1 with ⟨_, h⟩ | ⟨_, v, _, h⟩
        · exact h.symm
        · simp [Once] at h
      · rw [Bool.eq_iff_iff, h5]; simp
  | cons x r ih =>
    obtain ⟨k, v⟩ := x
    simp only [pcieArgs, show "events".toList = kEvents from rfl, show "sleep".toList = kSleep from rfl, show "max_in_flight".toList = kInFlight from rfl,
      show "max_packet_size".toList = kPacket from rfl, show "xdma_7series_workaround".toList = kXdma from rfl]
    have n1 : kEvents ≠ kSleep := by decide
    have n2 : kEvents ≠ kInFlight := by decide
    have n3 : kEvents ≠ kPacket := by decide
    have n4 : kEvents ≠ kXdma := by decide
    have n5 : kSleep ≠ kInFlight := by decide
    have n6 : kSleep ≠ kPacket := by decide
    have n7 : kSleep ≠ kXdma := by decide
    have n8 : kInFlight ≠ kPacket := by decide
    have n9 : kInFlight ≠ kXdma := by decide
    have n10 : kPacket ≠ kXdma := by decide
    by_cases h1 : k = kEvents
    · subst h1
      rw [if_pos rfl]
      unfold PcieSays
      simp only [valued_other n1, valued_other n2, valued_other n3, setting_other n1, setting_other n2, setting_other n3, some_other n4]
      cases he : s.events with
      | some e =>
        simp only [Option.isSome_some, if_true, reduceCtorEq, false_iff]
        rintro ⟨h | h, _⟩
        · exact absurd rfl (h.1 (kEvents, v) (by simp))
        · exact absurd h.1 (by simp)
      | none =>
        simp only [Option.isSome_none, Bool.false_eq_true, if_false, ih _ hu.tail, PcieSays]
        constructor
        · rintro ⟨h | h, hr⟩
          · exact ⟨.inr ⟨trivial, v, h.2, (once_same r).2 ⟨rfl, h.1⟩⟩, hr⟩
          · exact absurd h.1 (by simp)
        · rintro ⟨h | ⟨_, v', h2, h3⟩, hr⟩
          · exact absurd rfl (h.1 (kEvents, v) (by simp))
          · obtain ⟨rfl, h4⟩ := (once_same r).1 h3
            exact ⟨.inl ⟨h4, h2⟩, hr⟩
    · rw [if_neg h1]
      by_cases h2 : k = kSleep
      · subst h2
        have hv := hu.1 (kSleep, v) (by simp) rfl
        rw [if_pos rfl]
        unfold PcieSays
        simp only [none_other n1.symm, once_other n1.symm, valued_same, valued_other n5, valued_other n6, setting_other n5, setting_other n6, some_other n7]
        cases hl : lexSize v with
        | none =>
          simp only [reduceCtorEq, false_iff]
          rintro ⟨_, ⟨⟨h, _⟩, _⟩, _⟩
          exact numeral_none hv hl h
        | some m =>
          have hm : ∃ n, Numeral v n := ⟨m, (numeral_val hv hl m).2 rfl⟩
          simp only [ih _ hu.tail, PcieSays, setting_same Numeral (numeral_val hv hl), hm, true_and]
      · rw [if_neg h2]
        by_cases h3 : k = kInFlight
        · subst h3
          have hv := hu.2.1 (kInFlight, v) (by simp) rfl
          rw [if_pos rfl]
          unfold PcieSays
          simp only [none_other n2.symm, once_other n2.symm, valued_same, valued_other n5.symm, valued_other n8, setting_other n5.symm, setting_other n8, some_other n9]
          cases hl : lexSize v with
          | none =>
            simp only [reduceCtorEq, false_iff]
            rintro ⟨_, _, ⟨⟨h, _⟩, _⟩, _⟩
            exact numeral_none hv hl h
          | some m =>
            have hm : ∃ n, Numeral v n := ⟨m, (numeral_val hv hl m).2 rfl⟩
            simp only [ih _ hu.tail, PcieSays, setting_same Numeral (numeral_val hv hl), hm, true_and]
        · rw [if_neg h3]
          by_cases h4 : k = kPacket
          · subst h4
            have hv := hu.2.2.1 (kPacket, v) (by simp) rfl
            rw [if_pos rfl]
            unfold PcieSays
            simp only [none_other n3.symm, once_other n3.symm, valued_same, valued_other n6.symm, valued_other n8.symm, setting_other n6.symm, setting_other n8.symm,
              some_other n10]
            cases hl : lexSize v with
            | none =>
              simp only [reduceCtorEq, false_iff]
              rintro ⟨_, _, _, ⟨⟨h, _⟩, _⟩, _⟩
              exact numeral_none hv hl h
            | some m =>
              have hm : ∃ n, Numeral v n := ⟨m, (numeral_val hv hl m).2 rfl⟩
              simp only [ih _ hu.tail, PcieSays, setting_same Numeral (numeral_val hv hl), hm, true_and]
          · rw [if_neg h4]
            by_cases h5 : k = kXdma
            · subst h5
              rw [if_pos rfl, ih _ hu.tail]
              unfold PcieSays
              simp only [none_other n4.symm, once_other n4.symm, valued_other n7.symm, valued_other n9.symm, valued_other n10.symm, setting_other n7.symm,
                setting_other n9.symm, setting_other n10.symm]
              simp
            · rw [if_neg h5, ih _ hu.tail]
              unfold PcieSays
              simp only [none_other h1, once_other h1, valued_other h2, valued_other h3, valued_other h4, setting_other h2, setting_other h3, setting_other h4, some_other h5]

theorem comma_split (h : Str) : (h.takeWhile fun c => decide (c ≠ ',')).length < h.length →
    h = h.take (h.takeWhile fun c => decide (c ≠ ',')).length ++ ',' :: h.drop ((h.takeWhile fun c => decide (c ≠ ',')).length + 1) ∧
    ',' ∉ h.take (h.takeWhile fun c => decide (c ≠ ',')).length := by
  induction h with
  | nil => intro hl; simp at hl
  | cons c r ih =>
    intro hl
    by_cases hc : c = ','
    · subst hc; simp
    · have e : ((c :: r).takeWhile fun c => decide (c ≠ ',')) = c :: (r.takeWhile fun c => decide (c ≠ ',')) := by simp [List.takeWhile, hc]
      rw [e, List.length_cons, List.length_cons] at hl
      obtain ⟨h1, h2⟩ := ih (by omega)
      rw [e, List.length_cons, List.take_succ_cons, List.drop_succ_cons]
      exact ⟨by rw [List.cons_append, ← h1], by simp only [List.mem_cons, not_or]; exact ⟨Ne.symm hc, h2⟩⟩

theorem comma_take (a b : Str) (ha : ',' ∉ a) : ((a ++ ',' :: b).takeWhile fun c => decide (c ≠ ',')) = a := by
  induction a with
  | nil => simp
  | cons c r ih =>
    simp only [List.mem_cons, not_or] at ha
    have hc : c ≠ ',' := fun e => ha.1 e.symm
    simp only [List.cons_append, List.takeWhile, decide_true, hc, ne_eq, not_false_eq_true]
    rw [ih ha.2]

/-- **C67, PCIe.** A PCIe client is made exactly if the host part consists of two non-empty file names separated by a comma (the first comma counts) and the
arguments make sense; it then has these files and these settings. `_partial`: no minus signs. -/
theorem C67_pcie_partial (u : Uri) (hu : UnsignedAll u.arguments) (cl : Client) :
    makePcie u = .ok cl ↔ ∃ a b t, u.hostname = a ++ ',' :: b ∧ ',' ∉ a ∧ a ≠ [] ∧ b ≠ [] ∧ PcieSays ⟨none, 50, 0, 0, false⟩ u.arguments t ∧
      cl = .pcie a b t.events t.sleep t.inFlight t.packet t.workaround := by
  have hfwd : ∀ a b : Str, u.hostname = a ++ ',' :: b → ',' ∉ a → a ≠ [] → b ≠ [] → makePcie u =
      match pcieArgs ⟨none, 50, 0, 0, false⟩ u.arguments with
      | .error e => .exc e
      | .ok s => .ok (.pcie a b s.events s.sleep s.inFlight s.packet s.workaround) := by
    intro a b h1 h2 h3 h4
    have ht : (u.hostname.takeWhile fun c => decide (c ≠ ',')) = a := by rw [h1]; exact comma_take a b h2
    have hla := List.length_pos_iff.2 h3
    have hlb := List.length_pos_iff.2 h4
    have hl : u.hostname.length = a.length + (b.length + 1) := by rw [h1]; simp
    unfold makePcie
    dsimp only
    rw [ht, if_neg (by omega), if_neg (by omega)]
    have e1 : u.hostname.take a.length = a := by rw [h1]; simp
    have e2 : u.hostname.drop (a.length + 1) = b := by rw [h1, ← List.drop_drop]; simp
    rw [e1, e2]
    rfl
  constructor
  · intro h
    have hle : (u.hostname.takeWhile fun c => decide (c ≠ ',')).length ≤ u.hostname.length :=
      (List.takeWhile_sublist _).length_le
    by_cases h1 : (u.hostname.takeWhile fun c => decide (c ≠ ',')).length = u.hostname.length
    · unfold makePcie at h
      dsimp only at h
      rw [if_pos h1] at h; cases h
    · obtain ⟨g1, g2⟩ := comma_split u.hostname (by omega)
      generalize hi : (u.hostname.takeWhile fun c => decide (c ≠ ',')).length = i at *
      by_cases h2 : i = 0 ∨ i = u.hostname.length - 1
      · unfold makePcie at h
        dsimp only at h
        rw [hi, if_neg h1, if_pos h2] at h; cases h
      · have k1 : u.hostname.take i ≠ [] := by
          intro e
          have := congrArg List.length e
          simp only [List.length_take, List.length_nil] at this
          omega
        have k2 : u.hostname.drop (i + 1) ≠ [] := by
          intro e
          have := congrArg List.length e
          simp only [List.length_drop, List.length_nil] at this
          omega
        rw [hfwd _ _ g1 g2 k1 k2] at h
        cases hp : pcieArgs ⟨none, 50, 0, 0, false⟩ u.arguments with
        | error e => rw [hp] at h; cases h
        | ok t =>
          rw [hp] at h
          cases h
          exact ⟨_, _, t, g1, g2, k1, k2, (pcieArgs_ok _ _ hu t).1 hp, rfl⟩
  · rintro ⟨a, b, t, h1, h2, h3, h4, h5, rfl⟩
    rw [hfwd a b h1 h2 h3 h4, (pcieArgs_ok _ _ hu t).2 h5]

/-- What the arguments of an mmap client say, given the values so far. -/
def MmapSays (s : MmapS) (args : List (Str × Str)) (t : MmapS) : Prop :=
  (Valued kOffset Offset args ∧ Setting kOffset Offset s.offset args t.offset) ∧
  (Valued kSleep Numeral args ∧ Setting kSleep Numeral s.sleep args t.sleep) ∧
  (Valued kInFlight Numeral args ∧ Setting kInFlight Numeral s.inFlight args t.inFlight) ∧
  (Valued kPacket Numeral args ∧ Setting kPacket Numeral s.packet args t.packet)

theorem mmapArgs_ok (s : MmapS) (args : List (Str × Str)) (hu : UnsignedAll args) (t : MmapS) : mmapArgs s args = .ok t ↔ MmapSays s args t := by
  induction args generalizing s with
  | nil =>
    obtain ⟨e1, e2, e3, e4⟩ := s
    obtain ⟨f1, f2, f3, f4⟩ := t
    simp only [mmapArgs, MmapSays, setting_nil, valued_nil, true_and, Except.ok.injEq, MmapS.mk.injEq]
    constructor
    · rintro ⟨rfl, rfl, rfl, rfl⟩; exact ⟨rfl, rfl, rfl, rfl⟩
    · rintro ⟨rfl, rfl, rfl, rfl⟩; exact ⟨rfl, rfl, rfl, rfl⟩
  | cons x r ih =>
    obtain ⟨k, v⟩ := x
    simp only [mmapArgs, show "offset".toList = kOffset from rfl, show "sleep".toList = kSleep from rfl, show "max_in_flight".toList = kInFlight from rfl,
      show "max_packet_size".toList = kPacket from rfl]
    have n1 : kOffset ≠ kSleep := by decide
    have n2 : kOffset ≠ kInFlight := by decide
    have n3 : kOffset ≠ kPacket := by decide
    have n5 : kSleep ≠ kInFlight := by decide
    have n6 : kSleep ≠ kPacket := by decide
    have n8 : kInFlight ≠ kPacket := by decide
    by_cases h2 : k = kSleep
    · subst h2
      have hv := hu.1 (kSleep, v) (by simp) rfl
      rw [if_pos rfl]
      unfold MmapSays
      simp only [valued_same, valued_other n1.symm, valued_other n5, valued_other n6, setting_other n1.symm, setting_other n5, setting_other n6]
      cases hl : lexSize v with
      | none =>
        simp only [reduceCtorEq, false_iff]
        rintro ⟨_, ⟨⟨h, _⟩, _⟩, _⟩
        exact numeral_none hv hl h
      | some m =>
        have hm : ∃ n, Numeral v n := ⟨m, (numeral_val hv hl m).2 rfl⟩
        simp only [ih _ hu.tail, MmapSays, setting_same Numeral (numeral_val hv hl), hm, true_and]
    · rw [if_neg h2]
      by_cases h1 : k = kOffset
      · subst h1
        have hv := hu.2.2.2 (kOffset, v) (by simp) rfl
        rw [if_pos rfl]
        unfold MmapSays
        simp only [valued_same, valued_other n1, valued_other n2, valued_other n3, setting_other n1, setting_other n2, setting_other n3]
        cases hl : lexOffset v with
        | none =>
          simp only [reduceCtorEq, false_iff]
          rintro ⟨⟨⟨h, _⟩, _⟩, _⟩
          exact offset_none hv hl h
        | some m =>
          have hm : ∃ n, Offset v n := ⟨m, (offset_val hv hl m).2 rfl⟩
          simp only [ih _ hu.tail, MmapSays, setting_same Offset (offset_val hv hl), hm, true_and]
      · rw [if_neg h1]
        by_cases h3 : k = kInFlight
        · subst h3
          have hv := hu.2.1 (kInFlight, v) (by simp) rfl
          rw [if_pos rfl]
          unfold MmapSays
          simp only [valued_same, valued_other n2.symm, valued_other n5.symm, valued_other n8, setting_other n2.symm, setting_other n5.symm, setting_other n8]
          cases hl : lexSize v with
          | none =>
            simp only [reduceCtorEq, false_iff]
            rintro ⟨_, _, ⟨⟨h, _⟩, _⟩, _⟩
            exact numeral_none hv hl h
          | some m =>
            have hm : ∃ n, Numeral v n := ⟨m, (numeral_val hv hl m).2 rfl⟩
            simp only [ih _ hu.tail, MmapSays, setting_same Numeral (numeral_val hv hl), hm, true_and]
        · rw [if_neg h3]
          by_cases h4 : k = kPacket
          · subst h4
            have hv := hu.2.2.1 (kPacket, v) (by simp) rfl
            rw [if_pos rfl]
            unfold MmapSays
            simp only [valued_same, valued_other n3.symm, valued_other n6.symm, valued_other n8.symm, setting_other n3.symm, setting_other n6.symm, setting_other n8.symm]
            cases hl : lexSize v with
            | none =>
              simp only [reduceCtorEq, false_iff]
              rintro ⟨_, _, _, ⟨h, _⟩, _⟩
              exact numeral_none hv hl h
            | some m =>
              have hm : ∃ n, Numeral v n := ⟨m, (numeral_val hv hl m).2 rfl⟩
              simp only [ih _ hu.tail, MmapSays, setting_same Numeral (numeral_val hv hl), hm, true_and]
          · rw [if_neg h4, ih _ hu.tail]
            unfold MmapSays
            simp only [valued_other h1, valued_other h2, valued_other h3, valued_other h4, setting_other h1, setting_other h2, setting_other h3, setting_other h4]

/-- **C67, mmap.** `_partial`: no minus signs. -/
theorem C67_mmap_partial (u : Uri) (hu : UnsignedAll u.arguments) (cl : Client) :
    makeMmap u = .ok cl ↔ ∃ t, MmapSays ⟨0, 50, 0, 0⟩ u.arguments t ∧ cl = .mmap u.hostname t.offset t.sleep t.inFlight t.packet := by
  unfold makeMmap
  cases hm : mmapArgs ⟨0, 50, 0, 0⟩ u.arguments with
  | error e =>
    simp only [reduceCtorEq, false_iff]
    rintro ⟨t, h, _⟩
    rw [(mmapArgs_ok _ _ hu t).2 h] at hm
    cases hm
  | ok t =>
    simp only [Made.ok.injEq]
    constructor
    · rintro rfl; exact ⟨t, (mmapArgs_ok _ _ hu t).1 hm, rfl⟩
    · rintro ⟨t', h, rfl⟩
      rw [(mmapArgs_ok _ _ hu t').2 h] at hm
      cases hm; rfl

/-- The protocol in the URIs that clients of this kind and version have. -/
def Client.protocol : Client → Str
  | .udp .v1 _ _ _ => "ipbusudp-1.3".toList
  | .udp .v2 _ _ _ => "ipbusudp-2.0".toList
  | .tcp .v1 _ _ => "ipbustcp-1.3".toList
  | .tcp .v2 _ _ => "ipbustcp-2.0".toList
  | .hub .v1 _ _ _ _ => "chtcp-1.3".toList
  | .hub .v2 _ _ _ _ => "chtcp-2.0".toList
  | .pcie .. => "ipbuspcie-2.0".toList
  | .mmap .. => "ipbusmmap-2.0".toList
  | .user p => p

theorem inBody_ok {r : Except MExc Client} {c : Client} (h : inBody r = .ok c) : r = .ok c := by
  cases r with
  | error e => cases h
  | ok d => simp only [inBody, Made.ok.injEq] at h; rw [h]

theorem makeUdp_kind {w : World} {v : Ver} {u : Uri} {c : Client} (h : makeUdp w v u = .ok c) : ∃ ep n m, c = .udp v ep n m := by
  unfold makeUdp at h
  split at h
  · cases h
  · have h := inBody_ok h
    split at h
    · cases h
    · split at h
      · injection h with h; exact ⟨_, _, _, h.symm⟩
      · cases h

theorem makeTcp_kind {w : World} {v : Ver} {u : Uri} {c : Client} (h : makeTcp w v u = .ok c) : ∃ eps n, c = .tcp v eps n := by
  unfold makeTcp at h
  split at h
  · cases h
  · have h := inBody_ok h
    split at h
    · cases h
    · injection h with h; exact ⟨_, _, h.symm⟩

theorem makeHub_kind {w : World} {v : Ver} {u : Uri} {c : Client} (h : makeHub w v u = .ok c) : ∃ eps n ip port, c = .hub v eps n ip port := by
  unfold makeHub at h
  split at h
  · cases h
  · split at h
    · cases h
    · have h := inBody_ok h
      split at h
      · cases h
      · injection h with h; exact ⟨_, _, _, _, h.symm⟩

/-- **C67, protocols.** A client has the kind of transport and the version of IPbus that the protocol of the URI names. -/
theorem C67_protocol (w : World) (p : Str) (u : Uri) (c : Client) (h : make w p u = .ok c) : c.protocol = p := by
  unfold make at h
  by_cases hp : p = "ipbusudp-1.3".toList
  · rw [if_pos hp] at h
    obtain ⟨_, _, _, rfl⟩ := makeUdp_kind h; exact hp.symm
  rw [if_neg hp] at h
  clear hp
  by_cases hp : p = "ipbusudp-2.0".toList
  · rw [if_pos hp] at h
    obtain ⟨_, _, _, rfl⟩ := makeUdp_kind h; exact hp.symm
  rw [if_neg hp] at h
  clear hp
  by_cases hp : p = "ipbustcp-1.3".toList
  · rw [if_pos hp] at h
    obtain ⟨_, _, rfl⟩ := makeTcp_kind h; exact hp.symm
  rw [if_neg hp] at h
  clear hp
  by_cases hp : p = "ipbustcp-2.0".toList
  · rw [if_pos hp] at h
    obtain ⟨_, _, rfl⟩ := makeTcp_kind h; exact hp.symm
  rw [if_neg hp] at h
  clear hp
  by_cases hp : p = "chtcp-1.3".toList
  · rw [if_pos hp] at h
    obtain ⟨_, _, _, _, rfl⟩ := makeHub_kind h; exact hp.symm
  rw [if_neg hp] at h
  clear hp
  by_cases hp : p = "chtcp-2.0".toList
  · rw [if_pos hp] at h
    obtain ⟨_, _, _, _, rfl⟩ := makeHub_kind h; exact hp.symm
  rw [if_neg hp] at h
  clear hp
  by_cases hp : p = "ipbuspcie-2.0".toList
  · rw [if_pos hp] at h
    unfold makePcie at h
    dsimp only at h
    split at h
    · cases h
    split at h
    · cases h
    split at h
    · cases h
    · injection h with h; subst h; exact hp.symm
  rw [if_neg hp] at h
  clear hp
  by_cases hp : p = "ipbusmmap-2.0".toList
  · rw [if_pos hp] at h
    unfold makeMmap at h
    split at h
    · cases h
    · injection h with h; subst h; exact hp.symm
  rw [if_neg hp] at h
  clear hp
  injection h with h; subst h; rfl

/-! ## From the text -/

/-- **C67, the text.** A URI as text, of a protocol that is built in: the constructor of this protocol gets exactly the parts of the URI. `_partial`: see C39. -/
theorem C67_text_partial (w : World) (users enabled : List Str) (u : Uri) (h : Uri.Allowed u) (hp : u.port = [] → u.path = [] ∧ u.extension = [])
    (hb : Uri.builtIn.lookup u.protocol = some false) :
    client w (users.foldl (fun r q => Uri.Registry.add r q true) Uri.builtIn) enabled (Uri.print u) = make w u.protocol u := by
  unfold client
  rw [Uri.C39_built_in_partial users enabled u h hp hb]

/-- The hypothesis of `C67_hub_partial` about white space holds for whatever the factory passes to a constructor. -/
theorem parsed_args (s rest : Str) (u : Uri) (h : Uri.parse s = .ok u rest) : ∀ x ∈ u.arguments, NoSp x.2 :=
  fun x hx => ((Uri.parse_allowed h).1.sp6 x hx).2

/-! ## The memory for replies -/

/-- **C67, memory.** Every program over a UDP client that was made from a URI: the memory for replies is large enough for every packet, if the maximum is at least 40 bytes and
20 less than 2^32. `_partial`: other values of the maximum are accepted as well. -/
theorem C67_memory_partial (w : World) (v : Ver) (u : Uri) (ep : Ep) (n mem : Nat) (h : makeUdp w v u = .ok (.udp v ep n mem)) (h1 : 40 ≤ n) (h2 : n + 20 < 2 ^ 32)
    (wrapNeg : Bool) (c : Cfg) (hc : (Client.udp v ep n mem).cfg wrapNeg = some c) {τ : Type} (T : Transport τ) (hT : T.Total) (ops : List Op)
    (hops : ∀ op ∈ ops, op.ok c) (t : τ) (rs : List Res) (s : St τ) (hrun : runOps c T ops (St.init t) = some (rs, s)) (b : Buf) (hb : b ∈ s.hist) :
    4 * b.replyWords ≤ mem := by
  have hwf := cfg_wf wrapNeg _ c hc n (.inl ⟨v, ep, mem, rfl⟩) h1 (by omega)
  have hm : mem = n + 20 := by
    unfold makeUdp at h
    cases he : w.udp4 u.hostname u.port with
    | none => rw [he] at h; cases h
    | some e =>
      rw [he] at h
      dsimp only at h
      cases ha : udpArgs 1400 u.arguments with
      | error e => rw [ha] at h; cases h
      | ok n' =>
        rw [ha] at h
        dsimp only at h
        split at h
        · simp only [inBody, Made.ok.injEq, Client.udp.injEq, true_and] at h
          obtain ⟨_, rfl, rfl⟩ := h
          exact Nat.mod_eq_of_lt (by omega)
        · cases h
  have hr : c.maxReply.toNat = n := by
    simp only [Client.cfg, Option.some.injEq] at hc
    rw [← hc]
    simp only [BitVec.toNat_ofNat]
    exact Nat.mod_eq_of_lt (by omega)
  have := (C07_dispatched c T hwf hT ops hops t rs s hrun b hb).2.2
  omega

/-! ## Failures -/

/-- **C67, failures.** The constructors of the PCIe and mmap clients report what they do not accept by an exception. -/
theorem C67_paged_reported (u : Uri) : makePcie u ≠ .terminate ∧ makeMmap u ≠ .terminate := by
  constructor
  · unfold makePcie
    dsimp only
    split
    · simp
    · split
      · simp
      · split <;> simp
  · unfold makeMmap
    split <;> simp

theorem udp_no_exc (e : MExc) (x : Except MExc Client) : inBody x ≠ .exc e := by cases x <;> simp [inBody]

/-- **C67 violation.** Whatever the arguments of the URI of a UDP or TCP client: if one of them is not accepted, there is no exception. The process ends. (For every protocol but
PCIe and mmap; every world in which the host is found.) The exception `InvalidURI` never reaches anybody. -/
theorem C67_violated_terminate (w : World) (v : Ver) (u : Uri) :
    (∀ ep, w.udp4 u.hostname u.port = some ep → (∃ e, udpArgs 1400 u.arguments = .error e) → makeUdp w v u = .terminate) ∧
    (∀ eps, w.tcp u.hostname u.port = some eps → (∃ e, tcpArgs 1400 u.arguments = .error e) → makeTcp w v u = .terminate) ∧
    (∀ eps t, w.tcp u.hostname u.port = some eps → extractTarget w u = .ok t → (∃ e, tcpArgs 1400 u.arguments = .error e) → makeHub w v u = .terminate) ∧
    makeUdp w v u ≠ .exc .invalidUri ∧ makeTcp w v u ≠ .exc .invalidUri ∧ makeHub w v u ≠ .exc .invalidUri := by
  refine ⟨?_, ?_, ?_, ?_, ?_, ?_⟩
  · rintro ep h ⟨e, he⟩; simp [makeUdp, h, he, inBody]
  · rintro eps h ⟨e, he⟩; simp [makeTcp, h, he, inBody]
  · rintro eps t h ht ⟨e, he⟩; simp [makeHub, h, ht, he, inBody]
  · unfold makeUdp
    split
    · simp
    · exact udp_no_exc _ _
  · unfold makeTcp
    split
    · simp
    · exact udp_no_exc _ _
  · unfold makeHub
    split
    · rename_i e he
      intro h
      simp only [Made.exc.injEq] at h
      subst h
      unfold extractTarget at he
      repeat' split at he
      all_goals cases he
    · split
      · simp
      · exact udp_no_exc _ _

/-- A world in which every name is found. -/
def demoWorld : World where
  udp4 := fun _ _ => some ⟨10, 0, 0, 1, 50001⟩
  tcp := fun _ _ => some [("10.0.0.2".toList, 10203)]
  room := fun n => decide (n < 2 ^ 40)

/-- The client for a text in this world. -/
def demoClient (s : String) : Made := client demoWorld Uri.builtIn [] s.toList

/-- **C67 violation, witnesses.** A misspelt argument, or a value that is not a number, ends the process. -/
theorem C67_violated_terminate_text :
    demoClient "ipbusudp-2.0://board:50001?max_payloadsize=1000" = .terminate ∧ demoClient "ipbustcp-2.0://board:50001?max_payload_size=1k" = .terminate ∧
    demoClient "chtcp-2.0://hub:10203?target=board:50001&max_payload_size=" = .terminate := by decide +kernel

/-- **C67 violation.** Over TCP the misspelt argument is ignored. -/
theorem C67_violated_ignored : demoClient "ipbustcp-2.0://board:50001?max_payloadsize=1000" = .ok (.tcp .v2 [("10.0.0.2".toList, 10203)] 1400) := by decide +kernel

/-- **C67 violation.** A negative maximum is accepted; the memory for replies then has 19 bytes, while packets may be of any size: the reply to a read of ten words has 48. -/
theorem C67_violated_negative :
    demoClient "ipbusudp-2.0://board:50001?max_payload_size=-1" = .ok (.udp .v2 ⟨10, 0, 0, 1, 50001⟩ (2 ^ 64 - 1) 19) ∧
    ∃ c, (Client.udp .v2 ⟨10, 0, 0, 1, 50001⟩ (2 ^ 64 - 1) 19).cfg true = some c ∧
      ((runOps c demoTr [.readBlock 0 10 true, .dispatch] (St.init [])).map fun p => p.2.hist.map fun b => 4 * b.replyWords) = some [48] := by
  refine ⟨by decide +kernel, _, rfl, by decide +kernel⟩

/-- **C67 violation.** A maximum of zero is accepted; the first call writes behind the buffer for requests. -/
theorem C67_violated_zero :
    demoClient "ipbusudp-2.0://board:50001?max_payload_size=0" = .ok (.udp .v2 ⟨10, 0, 0, 1, 50001⟩ 0 20) ∧
    ∃ c, (Client.udp .v2 ⟨10, 0, 0, 1, 50001⟩ 0 20).cfg true = some c ∧ Op.run c demoTr (.read 0) (St.init []) = .ub := by
  refine ⟨by decide +kernel, _, rfl, ?_⟩
  have h : (match Op.run ⟨.v2, none, 0, 0, true⟩ demoTr (.read 0) (St.init []) with
      | .ub => true
      | _ => false) = true := by decide +kernel
  split at h
  · assumption
  · cases h

/-! ## Non-vacuity -/

example : demoClient "ipbusudp-1.3://board:50001?max_payload_size=500&max_payload_size=+0600" = .ok (.udp .v1 ⟨10, 0, 0, 1, 50001⟩ 600 620) := by decide +kernel
example : demoClient "chtcp-2.0://hub:10203?target=board:50001&target=other:1&x=y" =
    .ok (.hub .v2 [("10.0.0.2".toList, 10203)] 1400 0x0100000A 0x51C3) := by decide +kernel
example : demoClient "chtcp-2.0://hub:10203" = .exc .noTarget ∧ demoClient "chtcp-2.0://hub:10203?target=board" = .exc .badTarget := by decide +kernel
example : demoClient "ipbuspcie-2.0:///dev/w,/dev/r?sleep=7&events=/dev/e&max_in_flight=3" =
    .ok (.pcie "/dev/w".toList "/dev/r".toList (some "/dev/e".toList) 7 3 0 false) := by decide +kernel
example : demoClient "ipbusmmap-2.0:///dev/uio?offset=0x1F&sleep=9" = .ok (.mmap "/dev/uio".toList 31 9 0 0) := by decide +kernel

/-- The hypotheses of `C67_message`: numeric names are found; a URI with a numeric target. -/
def numericWorld : World where
  udp4 := fun h s => match quad h with
    | some [a, b, c, d] => if Ep.text ⟨BitVec.ofNat 8 a, BitVec.ofNat 8 b, BitVec.ofNat 8 c, BitVec.ofNat 8 d, 0⟩ = h then
        some ⟨BitVec.ofNat 8 a, BitVec.ofNat 8 b, BitVec.ofNat 8 c, BitVec.ofNat 8 d, BitVec.ofNat 16 (decVal s)⟩ else none
    | _ => none
  tcp := fun _ _ => some []
  room := fun _ => true

theorem decVal_toDigits (n : Nat) : decVal (Nat.toDigits 10 n) = n := by
  have key : ∀ m, ∀ n ≤ m, decVal (Nat.toDigits 10 n) = n := by
    intro m
    induction m with
    | zero => intro n hn; have : n = 0 := by omega
              subst this; decide
    | succ m ih =>
      intro n hn
      by_cases h : n < 10
      · have : ∀ n : Fin 10, decVal (Nat.toDigits 10 n.val) = n.val := by decide +kernel
        exact this ⟨n, h⟩
      · rw [Nat.toDigits_of_base_le (by decide) (by omega), decVal_snoc, ih (n / 10) (by omega)]
        have : ∀ k : Fin 10, (Nat.digitChar k.val).toNat - 48 = k.val := by decide +kernel
        have h2 := this ⟨n % 10, Nat.mod_lt _ (by decide)⟩
        simp only at h2
        rw [h2]; omega
  exact key n n (Nat.le_refl n)

theorem numericWorld_ok : NumericNames numericWorld := by
  rintro ⟨a, b, c, d, p⟩
  simp only [numericWorld, quad_text, BitVec.ofNat_toNat, BitVec.setWidth_eq, decVal_toDigits]
  rw [if_pos]
  rfl

example : ∃ cl, makeHub numericWorld .v2 ⟨"chtcp-2.0".toList, "hub".toList, "10203".toList, [], [], [(kTarget, "192.168.200.16:50001".toList)]⟩ = .ok cl ∧
    cl = .hub .v2 [] 1400 0x10C8A8C0 0x51C3 ∧ (⟨192, 168, 200, 16, 50001⟩ : Ep).target = "192.168.200.16:50001".toList :=
  ⟨_, by decide +kernel, rfl, by decide +kernel⟩

end Verif.Make
