import Verif.Lemmas.HubText
import Verif.Spec.HubText
/-!
# Hexadecimal texts
-/

set_option autoImplicit false

namespace Verif.HubText
open Verif.HubApp Verif.Spec Verif.Spec.HubText

theorem digitChar_ok : ∀ d, d < 10 → (48 ≤ (Nat.digitChar d).toNat ∧ (Nat.digitChar d).toNat ≤ 57) ∧ (Nat.digitChar d).toNat - 48 = d := by decide

theorem digits_dec (n : Nat) : Digits (dec n) n := by
  unfold dec
  induction n using Nat.base_induction 10 (by decide) with
  | single m hm =>
    rw [Nat.toDigits_of_lt_base hm]
    have ⟨h1, h2⟩ := digitChar_ok m hm
    have := Digits.one _ h1
    rwa [h2] at this
  | digit m k hk hm ih =>
    rw [← Nat.toDigits_append_toDigits (by decide) hm hk, Nat.toDigits_of_lt_base hk]
    have ⟨h1, h2⟩ := digitChar_ok k hk
    have := Digits.more _ _ _ h1 ih
    rwa [h2] at this

theorem lit_head {l y : Text} (h : Lit l) : ∀ c ∈ (l ++ y).head?, ¬ (48 ≤ c.toNat ∧ c.toNat ≤ 57) := by
  have ⟨c, t, e, hc⟩ := h.cons
  subst e
  intro d hd
  simp only [List.cons_append, List.head?_cons, Option.mem_def, Option.some.injEq] at hd
  subst hd
  intro k
  have : c.isDigit = true := by
    simp only [Char.isDigit, Bool.and_eq_true, decide_eq_true_eq]
    exact ⟨UInt32.le_iff_toNat_le.2 k.1, UInt32.le_iff_toNat_le.2 k.2⟩
  rw [hc] at this; cases this

theorem shows_of {t x before y : Text} {n : Nat} {l : Text} (hl : Lit l) (h : t = x ++ (before ++ (dec n ++ (l ++ y)))) : Shows t before n :=
  ⟨x, dec n, l ++ y, by simp only [h, List.append_assoc], digits_dec n, lit_head hl⟩

theorem upper_ok : ∀ d, d < 16 → HexDigit (upper d) d := by unfold HexDigit; decide
theorem lower_ok : ∀ d, d < 16 → HexDigit (lower d) d := by unfold HexDigit; decide
theorem upper_inj : ∀ d, d < 16 → ∀ e, e < 16 → upper d = upper e → d = e := by decide
theorem lower_inj : ∀ d, d < 16 → ∀ e, e < 16 → lower d = lower e → d = e := by decide

theorem hexN_length : ∀ n v, (hexN n v).length = n
  | 0, _ => rfl
  | n + 1, v => by rw [hexN, List.length_append, hexN_length n]; rfl

theorem hexN_inj : ∀ n v w, v < 16 ^ n → w < 16 ^ n → hexN n v = hexN n w → v = w
  | 0, v, w, hv, hw, _ => by simp only [Nat.pow_zero] at hv hw; omega
  | n + 1, v, w, hv, hw, h => by
    rw [hexN, hexN] at h
    have ⟨h1, h2⟩ := List.append_inj h (by rw [hexN_length, hexN_length])
    rw [Nat.pow_succ] at hv hw
    have h1 := hexN_inj n (v / 16) (w / 16) (Nat.div_lt_of_lt_mul (by omega)) (Nat.div_lt_of_lt_mul (by omega)) h1
    have h2 := upper_inj _ (Nat.mod_lt _ (by decide)) _ (Nat.mod_lt _ (by decide)) (List.cons.inj h2).1
    omega

theorem hexN_digits : ∀ n v, v < 16 ^ (n + 1) → HexDigits (hexN (n + 1) v) v
  | 0, v, hv => by
    have hv : v < 16 := by simpa using hv
    have := HexDigits.one _ _ (upper_ok v hv)
    simpa [hexN, Nat.mod_eq_of_lt hv] using this
  | n + 1, v, hv => by
    rw [Nat.pow_succ] at hv
    have ih := hexN_digits n (v / 16) (Nat.div_lt_of_lt_mul (by omega))
    have := HexDigits.more _ _ _ _ (upper_ok (v % 16) (Nat.mod_lt _ (by decide))) ih
    rw [show 16 * (v / 16) + v % 16 = v from Nat.div_add_mod v 16] at this
    rwa [hexN]

theorem hexN_cut {n v w : Nat} {x y : Text} (h : hexN n v ++ x = hexN n w ++ y) (hv : v < 16 ^ n) (hw : w < 16 ^ n) : v = w ∧ x = y := by
  have ⟨h1, h2⟩ := List.append_inj h (by rw [hexN_length, hexN_length])
  exact ⟨hexN_inj n v w hv hw h1, h2⟩

theorem ints_lt : ∀ b : List UInt8, ∀ w ∈ ints b, w < 16 ^ 8
  | [] => by simp [ints]
  | [_] => by simp [ints]
  | [_, _] => by simp [ints]
  | [_, _, _] => by simp [ints]
  | a :: b :: c :: d :: r => by
    intro w hw
    rw [ints, List.mem_cons] at hw
    cases hw with
    | inl h =>
      have := a.toNat_lt; have := b.toNat_lt; have := c.toNat_lt; have := d.toNat_lt
      rw [h]; omega
    | inr h => exact ints_lt r w h

theorem ints_length : ∀ (n : Nat) (b : List UInt8), b.length = 4 * n → (ints b).length = n
  | 0, b, h => by cases b with
    | nil => rfl
    | cons => simp at h
  | n + 1, [], h => by simp at h
  | n + 1, [_], h => by simp at h; omega
  | n + 1, [_, _], h => by simp at h; omega
  | n + 1, [_, _, _], h => by simp at h; omega
  | n + 1, a :: b :: c :: d :: r, h => by
    rw [ints, List.length_cons, ints_length n r (by simp only [List.length_cons] at h; omega)]

theorem ints_inj : ∀ (n : Nat) (b b' : List UInt8), b.length = 4 * n → b'.length = 4 * n → ints b = ints b' → b = b'
  | 0, b, b', h, h', _ => by rw [List.eq_nil_of_length_eq_zero h, List.eq_nil_of_length_eq_zero h']
  | n + 1, [], _, h, _, _ => by simp at h
  | n + 1, [_], _, h, _, _ => by simp at h; omega
  | n + 1, [_, _], _, h, _, _ => by simp at h; omega
  | n + 1, [_, _, _], _, h, _, _ => by simp at h; omega
  | n + 1, _, [], _, h, _ => by simp at h
  | n + 1, _, [_], _, h, _ => by simp at h; omega
  | n + 1, _, [_, _], _, h, _ => by simp at h; omega
  | n + 1, _, [_, _, _], _, h, _ => by simp at h; omega
  | n + 1, a :: b :: c :: d :: r, a' :: b' :: c' :: d' :: r', h, h', e => by
    rw [ints, ints] at e
    have ⟨e1, e2⟩ := List.cons.inj e
    have := a.toNat_lt; have := b.toNat_lt; have := c.toNat_lt; have := d.toNat_lt
    have := a'.toNat_lt; have := b'.toNat_lt; have := c'.toNat_lt; have := d'.toNat_lt
    have i1 : a = a' := UInt8.toNat_inj.1 (by omega)
    have i2 : b = b' := UInt8.toNat_inj.1 (by omega)
    have i3 : c = c' := UInt8.toNat_inj.1 (by omega)
    have i4 : d = d' := UInt8.toNat_inj.1 (by omega)
    have i5 := ints_inj n r r' (by simp only [List.length_cons] at h; omega) (by simp only [List.length_cons] at h'; omega) e2
    subst i1 i2 i3 i4 i5
    rfl

theorem ints_word : ∀ (i : Nat) (b : List UInt8) (w : Nat), WordAt b i w → (ints b)[i]? = some w
  | i, [], w, h => by obtain ⟨_, _, _, _, h, _⟩ := h; simp at h
  | i, [_], w, h => by obtain ⟨_, _, _, _, _, h, _⟩ := h; simp at h
  | i, [_, _], w, h => by obtain ⟨_, _, _, _, _, _, h, _⟩ := h; simp at h
  | i, [_, _, _], w, h => by obtain ⟨_, _, _, _, _, _, _, h, _⟩ := h; simp at h
  | 0, a :: b :: c :: d :: r, w, h => by
    obtain ⟨_, _, _, _, h1, h2, h3, h4, h5⟩ := h
    simp at h1 h2 h3 h4
    subst h1 h2 h3 h4
    rw [ints, h5]
    simp only [List.getElem?_cons_zero, Option.some.injEq]
    omega
  | i + 1, a :: b :: c :: d :: r, w, h => by
    obtain ⟨b0, b1, b2, b3, h1, h2, h3, h4, h5⟩ := h
    rw [ints, List.getElem?_cons_succ]
    refine ints_word i r w ⟨b0, b1, b2, b3, ?_, ?_, ?_, ?_, h5⟩
    · rw [show 4 * (i + 1) = 4 * i + 1 + 1 + 1 + 1 by omega] at h1; simpa using h1
    · rw [show 4 * (i + 1) + 1 = 4 * i + 1 + 1 + 1 + 1 + 1 by omega] at h2; simpa using h2
    · rw [show 4 * (i + 1) + 2 = 4 * i + 2 + 1 + 1 + 1 + 1 by omega] at h3; simpa using h3
    · rw [show 4 * (i + 1) + 3 = 4 * i + 3 + 1 + 1 + 1 + 1 by omega] at h4; simpa using h4

theorem word_cut {w w' idx : Nat} {x y : Text} (h : wordText w idx ++ x = wordText w' idx ++ y) (hw : w < 16 ^ 8) (hw' : w' < 16 ^ 8) :
    w = w' ∧ x = y := by
  unfold wordText at h
  simp only [List.append_assoc] at h
  have ⟨h1, h⟩ := hexN_cut (List.append_cancel_left h) hw hw'
  subst h1
  exact ⟨rfl, List.append_cancel_left (List.append_cancel_left h)⟩

theorem words_cut : ∀ (l l' : List Nat) (idx : Nat), l.length = l'.length → (∀ w ∈ l, w < 16 ^ 8) → (∀ w ∈ l', w < 16 ^ 8) →
    wordsText l idx = wordsText l' idx → l = l'
  | [], [], _, _, _, _, _ => rfl
  | [], _ :: _, _, h, _, _, _ => by cases h
  | _ :: _, [], _, h, _, _, _ => by cases h
  | a :: l, b :: l', idx, hl, h, h', e => by
    rw [wordsText, wordsText] at e
    have ⟨e1, e2⟩ := word_cut e (h a (List.mem_cons_self ..)) (h' b (List.mem_cons_self ..))
    rw [e1, words_cut l l' (idx + 1) (Nat.succ.inj hl) (fun w hw => h w (List.mem_cons_of_mem _ hw)) (fun w hw => h' w (List.mem_cons_of_mem _ hw)) e2]

theorem bytes_cut : ∀ (l l' : List UInt8) (x y : Text), l.length = l'.length →
    l.flatMap (fun x => hexN 2 x.toNat) ++ x = l'.flatMap (fun x => hexN 2 x.toNat) ++ y → l = l'
  | [], [], _, _, _, _ => rfl
  | [], _ :: _, _, _, h, _ => by cases h
  | _ :: _, [], _, _, h, _ => by cases h
  | a :: l, b :: l', x, y, hl, e => by
    simp only [List.flatMap_cons, List.append_assoc] at e
    have ⟨e1, e2⟩ := hexN_cut e (by have := a.toNat_lt; omega) (by have := b.toNat_lt; omega)
    rw [UInt8.toNat_inj.1 e1, bytes_cut l l' x y (Nat.succ.inj hl) e2]

theorem good_bad {x y : Text} (h : lit "Response (hex):" ++ x = lit "ERROR: Status response has incorrect length, " ++ y) : False := by
  have e : lit "Response (hex):" = 'R' :: lit "esponse (hex):" := by unfold lit; decide +kernel
  have e' : lit "ERROR: Status response has incorrect length, " = 'E' :: lit "RROR: Status response has incorrect length, " := by unfold lit; decide +kernel
  rw [e, e'] at h
  exact absurd (List.cons.inj h).1 (by decide)

theorem analyse_inj {b b' : List UInt8} (h : analyse b = analyse b') : b = b' := by
  unfold analyse at h
  by_cases hb : b.length = 64 <;> by_cases hb' : b'.length = 64
  · rw [if_pos hb, if_pos hb', List.append_assoc, List.append_assoc] at h
    refine ints_inj 16 b b' hb hb' (words_cut _ _ 0 ?_ (ints_lt b) (ints_lt b') (List.append_cancel_left (List.append_cancel_left h)))
    rw [ints_length 16 b hb, ints_length 16 b' hb']
  · rw [if_pos hb, if_neg hb'] at h
    simp only [List.append_assoc] at h
    exact (good_bad h).elim
  · rw [if_neg hb, if_pos hb'] at h
    simp only [List.append_assoc] at h
    exact (good_bad h.symm).elim
  · rw [if_neg hb, if_neg hb'] at h
    simp only [List.append_assoc] at h
    have ⟨h1, h⟩ := dec_lit (List.append_cancel_left h) (by isLit)
    have h := List.append_cancel_left (List.append_cancel_left (List.append_cancel_left (List.append_cancel_left h)))
    exact bytes_cut _ _ _ _ h1 h

theorem dec_newline (n : Nat) : '\n' ∉ dec n := fun h => by have := dec_isDigit n _ h; cases this

theorem remark_newline (w idx : Nat) : '\n' ∉ remark w idx := by
  unfold remark
  have k : ∀ s : String, (s.toList.contains '\n') = false → '\n' ∉ lit s := by
    intro s h; unfold lit; intro hm; rw [List.contains_iff_mem.2 hm] at h; cases h
  split
  · rw [List.mem_append]; rintro (h | h)
    · exact k _ (by decide +kernel) h
    · split at h
      · exact k _ (by decide +kernel) h
      · exact k _ (by decide +kernel) h
  · split
    · rw [List.mem_append, List.mem_append]; rintro ((h | h) | h)
      · exact k _ (by decide +kernel) h
      · exact dec_newline _ h
      · exact k _ (by decide +kernel) h
    · split
      · exact k _ (by decide +kernel)
      · split
        · exact k _ (by decide +kernel)
        · split
          · rw [List.mem_append]; rintro (h | h)
            · exact k _ (by decide +kernel) h
            · exact dec_newline _ h
          · split
            · rw [List.mem_append]; rintro (h | h)
              · exact k _ (by decide +kernel) h
              · exact dec_newline _ h
            · exact List.not_mem_nil

/-- The lines of the words. -/
def lines : List Nat → Nat → List Text
  | [], _ => []
  | w :: ws, idx => wordText w idx :: lines ws (idx + 1)

theorem lines_flatten : ∀ ws idx, (lines ws idx).flatten = wordsText ws idx
  | [], _ => rfl
  | w :: ws, idx => by rw [lines, wordsText, List.flatten_cons, lines_flatten]

theorem lines_length : ∀ ws idx, (lines ws idx).length = ws.length
  | [], _ => rfl
  | w :: ws, idx => by rw [lines, List.length_cons, List.length_cons, lines_length]

theorem lines_get : ∀ (ws : List Nat) (idx i w : Nat), ws[i]? = some w → (lines ws idx)[i]? = some (wordText w (idx + i))
  | [], _, _, _, h => by simp at h
  | w :: ws, idx, 0, w', h => by simp at h; subst h; rfl
  | w :: ws, idx, i + 1, w', h => by
    rw [lines, List.getElem?_cons_succ, lines_get ws (idx + 1) i w' (by simpa using h)]
    congr 2; omega

theorem letters_inj {a b : UInt8} (h : letters a = letters b) : a = b := by
  unfold letters at h
  have ha := a.toNat_lt; have hb := b.toNat_lt
  simp only [List.cons.injEq, and_true] at h
  have h1 := lower_inj _ (by omega) _ (by omega) h.1
  have h2 := lower_inj _ (by omega) _ (by omega) h.2
  exact UInt8.toNat_inj.1 (by omega)

theorem letters_cut {a b : UInt8} {x y : Text} (h : letters a ++ x = letters b ++ y) : a = b ∧ x = y := by
  have ⟨h1, h2⟩ := List.append_inj h rfl
  exact ⟨letters_inj h1, h2⟩

theorem printHex_words : ∀ (n : Nat) (b : List UInt8), b.length = 4 * n → ∃ ls : List Text, printHex b = some ls.flatten ∧ ls.length = n ∧
    ∀ (i w : Nat), (ints b)[i]? = some w → ∃ l, ls[i]? = some l ∧ HexLine (lit "    0x") w l
  | 0, b, h => by
    rw [List.eq_nil_of_length_eq_zero h]
    exact ⟨[], rfl, rfl, fun i w h => by simp [ints] at h⟩
  | n + 1, [], h => by simp at h
  | n + 1, [_], h => by simp at h; omega
  | n + 1, [_, _], h => by simp at h; omega
  | n + 1, [_, _, _], h => by simp at h; omega
  | n + 1, a :: b :: c :: d :: r, h => by
    obtain ⟨ls, h1, h2, h3⟩ := printHex_words n r (by simp only [List.length_cons] at h; omega)
    refine ⟨(lit "    0x" ++ letters a ++ letters b ++ letters c ++ letters d ++ nl) :: ls, ?_, by rw [List.length_cons, h2], ?_⟩
    · rw [printHex, h1]; simp only [Option.map_some, List.flatten_cons, List.append_assoc]
    · intro i w hw
      cases i with
      | succ i => rw [ints, List.getElem?_cons_succ] at hw; rw [List.getElem?_cons_succ]; exact h3 i w hw
      | zero =>
        rw [ints, List.getElem?_cons_zero, Option.some.injEq] at hw
        refine ⟨_, List.getElem?_cons_zero, letters a ++ letters b ++ letters c ++ letters d, [], by simp [nl], rfl, ?_, List.not_mem_nil⟩
        have ha := a.toNat_lt; have hb := b.toNat_lt; have hc := c.toNat_lt; have hd := d.toNat_lt
        have s1 := HexDigits.one _ _ (lower_ok (a.toNat / 16) (by omega))
        have s2 := HexDigits.more _ _ _ _ (lower_ok (a.toNat % 16) (by omega)) s1
        have s3 := HexDigits.more _ _ _ _ (lower_ok (b.toNat / 16) (by omega)) s2
        have s4 := HexDigits.more _ _ _ _ (lower_ok (b.toNat % 16) (by omega)) s3
        have s5 := HexDigits.more _ _ _ _ (lower_ok (c.toNat / 16) (by omega)) s4
        have s6 := HexDigits.more _ _ _ _ (lower_ok (c.toNat % 16) (by omega)) s5
        have s7 := HexDigits.more _ _ _ _ (lower_ok (d.toNat / 16) (by omega)) s6
        have s8 := HexDigits.more _ _ _ _ (lower_ok (d.toNat % 16) (by omega)) s7
        have e : w = 16 * (16 * (16 * (16 * (16 * (16 * (16 * (a.toNat / 16) + a.toNat % 16) + b.toNat / 16) + b.toNat % 16) + c.toNat / 16) + c.toNat % 16) +
          d.toNat / 16) + d.toNat % 16 := by omega
        rw [e]
        exact s8

theorem printHex_inj : ∀ (n : Nat) (b b' : List UInt8), b.length = 4 * n → printHex b = printHex b' → b = b'
  | 0, b, b', h, e => by
    rw [List.eq_nil_of_length_eq_zero h] at e ⊢
    match b' with
    | [] => rfl
    | [_] => simp [printHex] at e
    | [_, _] => simp [printHex] at e
    | [_, _, _] => simp [printHex] at e
    | _ :: _ :: _ :: _ :: r' => cases hp : printHex r' <;> simp [printHex, nl, hp] at e
  | n + 1, [], _, h, _ => by simp at h
  | n + 1, [_], _, h, _ => by simp at h; omega
  | n + 1, [_, _], _, h, _ => by simp at h; omega
  | n + 1, [_, _, _], _, h, _ => by simp at h; omega
  | n + 1, a :: b :: c :: d :: r, b', h, e => by
    have hr : r.length = 4 * n := by simp only [List.length_cons] at h; omega
    obtain ⟨ls, h1, _⟩ := printHex_words n r hr
    match b' with
    | [] => simp [printHex, h1, nl] at e
    | [_] => simp [printHex, h1] at e
    | [_, _] => simp [printHex, h1] at e
    | [_, _, _] => simp [printHex, h1] at e
    | a' :: b' :: c' :: d' :: r' =>
      rw [printHex, printHex, h1] at e
      cases hp : printHex r' with
      | none => rw [hp] at e; cases e
      | some t =>
        rw [hp] at e
        simp only [Option.map_some, Option.some.injEq, List.append_assoc] at e
        have ⟨e1, e⟩ := letters_cut (List.append_cancel_left e)
        have ⟨e2, e⟩ := letters_cut e
        have ⟨e3, e⟩ := letters_cut e
        have ⟨e4, e⟩ := letters_cut e
        have e5 := printHex_inj n r r' hr (by rw [h1, hp, List.append_cancel_left e])
        rw [e1, e2, e3, e4, e5]

end Verif.HubText
