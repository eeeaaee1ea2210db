import Verif.Model.NodeAttr
import Verif.Spec.NodeAttr
/-!
# The parsers of `parameters` and `fwinfo` are exact
-/

set_option autoImplicit false
set_option linter.unusedSimpArgs false

namespace Verif
open Spec
namespace NodeAttr

theorem isSpc_iff (c : Char) : isSpc c = true ↔ Blank c := by
  simp [isSpc, Blank, or_assoc]

theorem isKeyStart_iff (c : Char) : isKeyStart c = true ↔ Letter c := by
  simp [isKeyStart, Letter, or_assoc]

theorem isKeyChar_iff (c : Char) : isKeyChar c = true ↔ Letter c ∨ Digit c := by
  simp [isKeyChar, Digit, isKeyStart_iff]

/-! ## Splitting a text at the first character that does not belong to it -/

theorem takeWhile_all {α : Type} {p : α → Bool} : ∀ l : List α, ∀ x ∈ l.takeWhile p, p x = true
  | [] => by simp
  | a :: l => by
    intro x hx
    rw [List.takeWhile_cons] at hx
    split at hx
    · rename_i h
      rw [List.mem_cons] at hx
      rcases hx with rfl | hx
      · exact h
      · exact takeWhile_all l x hx
    · simp at hx

theorem dropWhile_head {α : Type} {p : α → Bool} : ∀ (l : List α) (x : α) (r : List α), l.dropWhile p = x :: r → p x = false
  | [] => by simp
  | a :: l => by
    intro x r h
    rw [List.dropWhile_cons] at h
    split at h
    · exact dropWhile_head l x r h
    · rename_i hp
      cases h
      simpa using hp

theorem span_eq {α : Type} {p : α → Bool} {a r : List α} (ha : ∀ x ∈ a, p x = true) (hr : ∀ x, r.head? = some x → p x = false) :
    (a ++ r).takeWhile p = a ∧ (a ++ r).dropWhile p = r := by
  induction a with
  | nil =>
    cases r with
    | nil => simp
    | cons x r =>
      have := hr x rfl
      simp [List.takeWhile_cons, List.dropWhile_cons, this]
  | cons y a ih =>
    have hy := ha y (by simp)
    obtain ⟨h1, h2⟩ := ih (fun x hx => ha x (by simp [hx]))
    simp [List.takeWhile_cons, List.dropWhile_cons, hy, h1, h2]

/-- Anything of that kind at the beginning is part of what `takeWhile` takes. -/
theorem span_max {α : Type} {p : α → Bool} {s a r : List α} (hs : s = a ++ r) (ha : ∀ x ∈ a, p x = true) :
    ∃ m, s.takeWhile p = a ++ m ∧ r = m ++ s.dropWhile p := by
  subst hs
  induction a with
  | nil => exact ⟨r.takeWhile p, by simp, by simp [List.takeWhile_append_dropWhile]⟩
  | cons y a ih =>
    have hy := ha y (by simp)
    obtain ⟨m, h1, h2⟩ := ih (fun x hx => ha x (by simp [hx]))
    exact ⟨m, by simp [List.takeWhile_cons, hy, h1], by simp [List.dropWhile_cons, hy, ← h2]⟩

/-! ## `parameters` -/

/-- A character that can follow the beginning of a parameter within it. -/
def Inner (c : Char) : Prop := Letter c ∨ Digit c ∨ c = '='

theorem inner_not_sep {c : Char} (h : Inner c) : ¬ (c = ';' ∨ c = '&') := by
  rintro (rfl | rfl) <;> revert h <;> unfold Inner <;> decide

theorem eq_not_key : isKeyChar '=' = false := by decide

/-- The rule `pair` finds the longest parameter. -/
theorem parsePair_some {x r : Str} {p : Str × Str} (h : parsePair x = some (p, r)) :
    ∃ t, x = t ++ r ∧ ParText t p ∧ ∀ t' r' p', x = t' ++ r' → ParText t' p' →
      (t' = t ∧ r' = r ∧ p' = p) ∨ ∃ c m, r' = c :: m ∧ Inner c ∧ t'.length < t.length := by
  cases x with
  | nil => simp [parsePair] at h
  | cons c s =>
    rw [parsePair] at h
    split at h
    case isFalse => cases h
    case isTrue hc =>
    have hcl := (isKeyStart_iff c).1 hc
    have hname : Name (c :: s.takeWhile isKeyChar) :=
      ⟨c, _, rfl, hcl, fun x hx => (isKeyChar_iff x).1 (takeWhile_all _ x hx)⟩
    have hsplit : s = s.takeWhile isKeyChar ++ s.dropWhile isKeyChar := (List.takeWhile_append_dropWhile).symm
    -- what a parameter at the beginning can be
    have hpre : ∀ k r', Name k → c :: s = k ++ r' → ∃ m, c :: s.takeWhile isKeyChar = k ++ m ∧ r' = m ++ s.dropWhile isKeyChar ∧
        ∀ y ∈ m, isKeyChar y = true := by
      rintro k r' ⟨c', s', rfl, _, hs'⟩ he
      rw [List.cons_append, List.cons.injEq] at he
      obtain ⟨rfl, he⟩ := he
      obtain ⟨m, h1, h2⟩ := span_max he (fun x hx => (isKeyChar_iff x).2 (hs' x hx))
      refine ⟨m, by rw [h1]; rfl, h2, fun y hy => takeWhile_all s y (by rw [h1]; simp [hy])⟩
    simp only at h
    split at h
    · -- `=` follows the name
      rename_i r0 hr0
      have hkey : ∀ k v r', Name k → c :: s = k ++ '=' :: (v ++ r') → k = c :: s.takeWhile isKeyChar ∧ r0 = v ++ r' := by
        intro k v r' hk he
        obtain ⟨m, h1, h2, h3⟩ := hpre k _ hk he
        cases m with
        | nil => rw [hr0] at h2; simp only [List.nil_append, List.cons.injEq, true_and] at h2; exact ⟨by simpa using h1.symm, h2.symm⟩
        | cons y m =>
          rw [List.cons_append, List.cons.injEq] at h2
          have := h3 y (by simp)
          rw [← h2.1, eq_not_key] at this
          cases this
      split at h
      · rename_i hv
        cases h
        refine ⟨c :: s.takeWhile isKeyChar, by rw [List.cons_append, ← hsplit], .bare hname, ?_⟩
        intro t' r' p' he hp'
        cases hp' with
        | bare hk =>
          obtain ⟨m, h1, h2, h3⟩ := hpre _ _ hk he
          cases m with
          | nil =>
          have hk' : t' = c :: s.takeWhile isKeyChar := by simpa using h1.symm
          exact .inl ⟨hk', by simpa using h2, by rw [hk']⟩
          | cons y m =>
            refine .inr ⟨y, _, h2, ?_, ?_⟩
            · rcases (isKeyChar_iff y).1 (h3 y (by simp)) with h | h
              · exact .inl h
              · exact .inr (.inl h)
            · rw [h1]; simp
        | @value k v hk hv' =>
          rw [List.append_assoc] at he
          obtain ⟨_, h2⟩ := hkey k v r' hk he
          obtain ⟨m, h3, _⟩ := span_max (p := isKeyChar) h2 (fun x hx => (isKeyChar_iff x).2 (hv'.2 x hx))
          rw [hv] at h3
          have : v = [] := (List.append_eq_nil_iff.1 h3.symm).1
          exact absurd this hv'.1
      · rename_i hv
        cases h
        have hval : Value (r0.takeWhile isKeyChar) := ⟨hv, fun x hx => (isKeyChar_iff x).1 (takeWhile_all _ x hx)⟩
        refine ⟨(c :: s.takeWhile isKeyChar) ++ '=' :: r0.takeWhile isKeyChar, ?_, .value hname hval, ?_⟩
        · rw [List.append_assoc, List.cons_append, List.cons_append, List.takeWhile_append_dropWhile, ← hr0, ← hsplit]
        · intro t' r' p' he hp'
          cases hp' with
          | bare hk =>
            obtain ⟨m, h1, h2, h3⟩ := hpre _ _ hk he
            cases m with
            | nil =>
              refine .inr ⟨'=', r0, ?_, .inr (.inr rfl), ?_⟩
              · rw [h2, hr0]; rfl
              · rw [h1]; simp
            | cons y m =>
              refine .inr ⟨y, _, h2, ?_, ?_⟩
              · rcases (isKeyChar_iff y).1 (h3 y (by simp)) with h | h
                · exact .inl h
                · exact .inr (.inl h)
              · rw [h1]; simp
          | @value k v hk hv' =>
            rw [List.append_assoc] at he
            obtain ⟨h1, h2⟩ := hkey k v r' hk he
            obtain ⟨m, h3, h4⟩ := span_max (p := isKeyChar) h2 (fun x hx => (isKeyChar_iff x).2 (hv'.2 x hx))
            cases m with
            | nil => exact .inl ⟨by rw [h1, h3]; simp, by rw [h4]; simp, by rw [h1, h3]; simp⟩
            | cons y m =>
              refine .inr ⟨y, _, h4, ?_, ?_⟩
              · have : y ∈ r0.takeWhile isKeyChar := by rw [h3]; simp
                rcases hval.2 y this with h | h
                · exact .inl h
                · exact .inr (.inl h)
              · rw [h1, h3]; simp
    · -- no `=`
      rename_i hno
      cases h
      refine ⟨c :: s.takeWhile isKeyChar, by rw [List.cons_append, ← hsplit], .bare hname, ?_⟩
      intro t' r' p' he hp'
      cases hp' with
      | bare hk =>
        obtain ⟨m, h1, h2, h3⟩ := hpre _ _ hk he
        cases m with
        | nil =>
          have hk' : t' = c :: s.takeWhile isKeyChar := by simpa using h1.symm
          exact .inl ⟨hk', by simpa using h2, by rw [hk']⟩
        | cons y m =>
          refine .inr ⟨y, _, h2, ?_, ?_⟩
          · rcases (isKeyChar_iff y).1 (h3 y (by simp)) with h | h
            · exact .inl h
            · exact .inr (.inl h)
          · rw [h1]; simp
      | @value k v hk hv' =>
        rw [List.append_assoc] at he
        obtain ⟨m, h1, h2, h3⟩ := hpre k _ hk he
        cases m with
        | nil => exact absurd (by simpa using h2.symm) (hno _)
        | cons y m =>
          rw [List.cons_append, List.cons_append, List.cons.injEq] at h2
          have := h3 y (by simp)
          rw [← h2.1, eq_not_key] at this
          cases this

theorem parsePair_none {x : Str} (h : parsePair x = none) {t' r' : Str} {p' : Str × Str} (he : x = t' ++ r') : ¬ ParText t' p' := by
  have key : ∀ k r'', Name k → x = k ++ r'' → False := by
    rintro k r'' ⟨c, s, rfl, hc, _⟩ rfl
    rw [List.cons_append, parsePair, if_pos ((isKeyStart_iff c).2 hc)] at h
    simp only at h
    split at h
    · split at h <;> cases h
    · cases h
  intro hp
  cases hp with
  | bare hk => exact key _ _ hk he
  | value hk _ => rw [List.append_assoc] at he; exact key _ _ hk he

theorem parText_ne {t : Str} {p : Str × Str} (h : ParText t p) : t ≠ [] := by
  cases h with
  | bare hk => obtain ⟨c, s, rfl, _⟩ := hk; simp
  | value hk _ => simp

theorem parsTail_head {s : Str} {ps : List (Str × Str)} (h : ParsTail s ps) : s = [] ∨ ∃ c m, s = c :: m ∧ (c = ';' ∨ c = '&') := by
  cases h with
  | nil => exact .inl rfl
  | cons hc _ _ => exact .inr ⟨_, _, rfl, hc⟩

/-- Two parameters at the beginning, the first as long as possible, the second followed by a separator or nothing. -/
theorem pair_agree {x r t t' s' r' : Str} {p p' : Str × Str} {ps' : List (Str × Str)}
    (hmax : ∀ t' r' p', x = t' ++ r' → ParText t' p' → (t' = t ∧ r' = r ∧ p' = p) ∨ ∃ c m, r' = c :: m ∧ Inner c ∧ t'.length < t.length)
    (he : x = t' ++ (s' ++ r')) (hp : ParText t' p') (hs : ParsTail s' ps') :
    (t' = t ∧ s' ++ r' = r ∧ p' = p) ∨ (s' = [] ∧ t'.length < t.length) := by
  rcases hmax t' (s' ++ r') p' he hp with h | ⟨c, m, h1, h2, h3⟩
  · exact .inl h
  · rcases parsTail_head hs with rfl | ⟨c', m', rfl, hc'⟩
    · exact .inr ⟨rfl, h3⟩
    · rw [List.cons_append, List.cons.injEq] at h1
      rw [h1.1] at hc'
      exact absurd hc' (inner_not_sep h2)

theorem parsePairs_spec : ∀ (fuel : Nat) (x : Str), x.length ≤ fuel → ∃ t r, x = t ++ r ∧ ParsTail t (parsePairs fuel x) ∧
    ∀ t' r' ps', x = t' ++ r' → ParsTail t' ps' → t'.length ≤ t.length ∧ (t' = t → ps' = parsePairs fuel x)
  | 0, x, hx => by
    have : x = [] := List.length_eq_zero_iff.1 (by omega)
    subst this
    refine ⟨[], [], rfl, by rw [parsePairs]; exact .nil, ?_⟩
    intro t' r' ps' he ht
    have : t' = [] := (List.append_eq_nil_iff.1 he.symm).1
    subst this
    cases ht
    exact ⟨Nat.le_refl _, fun _ => by rw [parsePairs]⟩
  | fuel + 1, [], _ => by
    refine ⟨[], [], rfl, by rw [parsePairs]; exact .nil, ?_⟩
    intro t' r' ps' he ht
    have : t' = [] := (List.append_eq_nil_iff.1 he.symm).1
    subst this
    cases ht
    exact ⟨Nat.le_refl _, fun _ => by rw [parsePairs]⟩
  | fuel + 1, c :: s, hx => by
    rw [parsePairs]
    have hnil : ∀ {t' : Str} {ps' : List (Str × Str)}, ParsTail t' ps' → (∀ c m, t' ≠ c :: m) → t'.length ≤ 0 ∧ (t' = [] → ps' = []) := by
      intro t' ps' ht hne
      cases ht with
      | nil => exact ⟨Nat.le_refl _, fun _ => rfl⟩
      | cons => exact absurd rfl (hne _ _)
    by_cases hc : (c == ';' || c == '&') = true
    · rw [if_pos hc]
      have hc' : c = ';' ∨ c = '&' := by simpa using hc
      cases hp : parsePair s with
      | none =>
        refine ⟨[], c :: s, rfl, .nil, ?_⟩
        intro t' r' ps' he ht
        refine hnil ht ?_
        rintro c' m rfl
        cases ht with
        | cons hcc htt hss =>
          rw [List.cons_append, List.cons.injEq, List.append_assoc] at he
          exact parsePair_none hp he.2 htt
      | some pr =>
        obtain ⟨p, r⟩ := pr
        obtain ⟨t, he, ht, hmax⟩ := parsePair_some hp
        have hlen : r.length ≤ fuel := by
          have h1 : s.length = t.length + r.length := by rw [he]; simp
          have h2 := List.length_pos_iff.mpr (parText_ne ht)
          simp only [List.length_cons] at hx
          omega
        obtain ⟨t2, r2, he2, ht2, hmax2⟩ := parsePairs_spec fuel r hlen
        refine ⟨c :: (t ++ t2), r2, by rw [he]; conv => lhs; rw [he2]
                                       simp, .cons hc' ht ht2, ?_⟩
        intro t' r' ps' he' ht'
        cases ht' with
        | nil => exact ⟨by simp, fun h => by cases h⟩
        | @cons c' a b p' ps'' hcc haa hbb =>
          rw [List.cons_append, List.cons.injEq, List.append_assoc] at he'
          rcases pair_agree hmax he'.2 haa hbb with ⟨rfl, h, rfl⟩ | ⟨rfl, h⟩
          · obtain ⟨g1, g2⟩ := hmax2 b r' ps'' h.symm hbb
            refine ⟨by simp; omega, fun h => ?_⟩
            rw [List.cons.injEq, List.append_cancel_left_eq] at h
            rw [g2 h.2]
          · refine ⟨by simp; omega, fun h' => ?_⟩
            exfalso
            have := congrArg List.length h'
            simp at this
            omega
    · rw [if_neg hc]
      refine ⟨[], c :: s, rfl, .nil, ?_⟩
      intro t' r' ps' he ht
      refine hnil ht ?_
      rintro c' m rfl
      cases ht with
      | cons hcc _ _ =>
        rw [List.cons_append, List.cons.injEq] at he
        rw [← he.1] at hcc
        exact hc (by simpa using hcc)

theorem parsText_iff (x : Str) : ∃ t r, x = t ++ r ∧
    ParsText t (match parsePair x with | some (p, r) => p :: parsePairs r.length r | none => []) ∧
    ∀ t' r' ps', x = t' ++ r' → ParsText t' ps' → t'.length ≤ t.length ∧
      (t' = t → ps' = (match parsePair x with | some (p, r) => p :: parsePairs r.length r | none => [])) := by
  cases hp : parsePair x with
  | none =>
    refine ⟨[], x, rfl, .nil, ?_⟩
    intro t' r' ps' he ht
    cases ht with
    | nil => exact ⟨Nat.le_refl _, fun _ => rfl⟩
    | cons ht hs => rw [List.append_assoc] at he; exact absurd ht (parsePair_none hp he)
  | some pr =>
    obtain ⟨p, r⟩ := pr
    obtain ⟨t, he, ht, hmax⟩ := parsePair_some hp
    obtain ⟨t2, r2, he2, ht2, hmax2⟩ := parsePairs_spec r.length r (Nat.le_refl _)
    refine ⟨t ++ t2, r2, by rw [List.append_assoc, ← he2]; exact he, .cons ht ht2, ?_⟩
    intro t' r' ps' he' ht'
    cases ht' with
    | nil =>
      refine ⟨by simp, fun h => ?_⟩
      have := congrArg List.length h
      have h2 := List.length_pos_iff.mpr (parText_ne ht)
      simp at this
      omega
    | @cons a b p' ps'' haa hbb =>
      rw [List.append_assoc] at he'
      rcases pair_agree hmax he' haa hbb with ⟨rfl, h, rfl⟩ | ⟨rfl, h⟩
      · obtain ⟨g1, g2⟩ := hmax2 b r' ps'' h.symm hbb
        refine ⟨by simp; omega, fun h => ?_⟩
        rw [List.append_cancel_left_eq] at h
        rw [g2 h]
      · refine ⟨by simp; omega, fun h' => ?_⟩
        exfalso
        have := congrArg List.length h'
        simp at this
        omega

/-- `parsePars` gives exactly what the text says. -/
theorem parsePars_iff (s : Str) (ps : List (Str × Str)) : parsePars s = ps ↔ ParsOf s ps := by
  obtain ⟨t, r, he, ht, hmax⟩ := parsText_iff (s.dropWhile isSpc)
  have hpp : parsePars s = (match parsePair (s.dropWhile isSpc) with | some (p, r) => p :: parsePairs r.length r | none => []) := rfl
  rw [← hpp] at ht hmax
  constructor
  · rintro rfl
    refine ⟨s.takeWhile isSpc, t, r, by rw [← he, List.takeWhile_append_dropWhile],
      fun c hc => (isSpc_iff c).1 (takeWhile_all _ c hc), ?_, ht, ?_⟩
    · intro c hc hb
      rw [← he] at hc
      cases hd : s.dropWhile isSpc with
      | nil => rw [hd] at hc; cases hc
      | cons x l =>
        rw [hd] at hc
        cases hc
        rw [← isSpc_iff, dropWhile_head s _ l hd] at hb
        cases hb
    · intro t' r' ps' h ht'
      exact (hmax t' r' ps' (he.trans h) ht').1
  · rintro ⟨b, t', r', rfl, hb, hn, ht', hmax'⟩
    have hd := (span_eq (p := isSpc) (a := b) (r := t' ++ r') (fun x hx => (isSpc_iff x).2 (hb x hx)) (by
      intro x hx
      have := hn x hx
      rw [← isSpc_iff] at this
      simpa using this)).2
    rw [hd] at he
    have h1 := hmax t' r' ps (by rw [hd]) ht'
    have h2 := hmax' t r _ he ht
    have hlen : t'.length = t.length := Nat.le_antisymm h1.1 h2
    have : t' = t := (List.append_inj he hlen).1
    exact (h1.2 this).symm

/-- Every text says something. -/
theorem parsOf_exists (s : Str) : ParsOf s (parsePars s) := (parsePars_iff s _).1 rfl

/-! ## `fwinfo` -/

theorem split_at (q : Char) (s : Str) :
    (q ∉ s ∧ s.takeWhile (· != q) = s ∧ s.dropWhile (· != q) = []) ∨
    ∃ a r, s = a ++ q :: r ∧ q ∉ a ∧ s.takeWhile (· != q) = a ∧ s.dropWhile (· != q) = q :: r := by
  have hall : q ∉ s.takeWhile (· != q) := fun h => by have := takeWhile_all s q h; simp at this
  have heq := List.takeWhile_append_dropWhile (p := (· != q)) (l := s)
  cases hd : s.dropWhile (· != q) with
  | nil =>
    rw [hd, List.append_nil] at heq
    exact .inl ⟨by rw [← heq]; exact hall, heq, rfl⟩
  | cons x r =>
    have := dropWhile_head s x r hd
    simp only [bne_eq_false_iff_eq] at this
    subst this
    rw [hd] at heq
    exact .inr ⟨_, r, heq.symm, hall, rfl, rfl⟩

theorem split_unique {q : Char} {a b r s : Str} (ha : q ∉ a) (hb : q ∉ b) (h : a ++ q :: r = b ++ q :: s) : a = b ∧ r = s := by
  have h1 := span_eq (p := (· != q)) (a := a) (r := q :: r) (fun x hx => by
    simp only [bne_iff_ne]; rintro rfl; exact ha hx) (by simp)
  have h2 := span_eq (p := (· != q)) (a := b) (r := q :: s) (fun x hx => by
    simp only [bne_iff_ne]; rintro rfl; exact hb hx) (by simp)
  rw [h] at h1
  refine ⟨h1.1.symm.trans h2.1, ?_⟩
  have := h1.2.symm.trans h2.2
  simpa using this

theorem parseFwArgs_iff : ∀ (fuel : Nat) (s : Str) (l : List (Str × Str)), s.length < fuel → (parseFwArgs fuel s = some l ↔ FwArgs s l)
  | 0, s, l, h => by omega
  | fuel + 1, s, l, hf => by
    rw [parseFwArgs]
    rcases split_at '=' s with ⟨hq, h1, h2⟩ | ⟨k, r, rfl, hq, h1, h2⟩
    · rw [h1, h2]
      by_cases hs : s = []
      · subst hs
        rw [if_pos rfl]
        constructor
        · intro h; cases h; exact .nil
        · intro h
          generalize hx : ([] : Str) = x at h
          cases h with
          | nil => rfl
          | stop => cases hx
          | last => simp at hx
          | more => simp at hx
      · rw [if_neg hs]
        constructor
        · intro h; cases h
        · intro h
          exfalso
          cases h with
          | nil => exact hs rfl
          | stop => simp at hq
          | last => simp at hq
          | more => simp at hq
    · rw [h1, h2]
      simp only
      by_cases hk : k = []
      · subst hk
        rw [if_pos rfl]
        constructor
        · intro h; cases h; exact .stop
        · intro h
          generalize hx : [] ++ '=' :: r = x at h
          cases h with
          | nil => cases hx
          | stop => rfl
          | last hk hk2 => exact absurd (split_unique hq hk2 hx).1.symm hk
          | more hk hk2 => exact absurd (split_unique hq hk2 hx).1.symm hk
      · rw [if_neg hk]
        rcases split_at ';' r with ⟨hv, h3, h4⟩ | ⟨v, r2, rfl, hv, h3, h4⟩
        · rw [h3, h4]
          have hz : parseFwArgs fuel (List.drop 1 []) = some [] := by cases fuel <;> rfl
          rw [hz]
          simp only [Option.map_some, Option.some.injEq]
          constructor
          · rintro rfl; exact .last hk hq hv
          · intro h
            generalize hx : k ++ '=' :: r = x at h
            cases h with
            | nil => simp at hx
            | @stop s =>
              exact absurd (split_unique hq (b := []) (by simp) hx).1 hk
            | last _ hk2 _ => obtain ⟨rfl, rfl⟩ := split_unique hq hk2 hx; rfl
            | more _ hk2 _ _ => obtain ⟨rfl, rfl⟩ := split_unique hq hk2 hx; simp at hv
        · rw [h3, h4]
          have ih := parseFwArgs_iff fuel r2
          simp only [List.drop_succ_cons, List.drop_zero]
          have hlen : r2.length < fuel := by simp at hf; omega
          constructor
          · intro h
            rw [Option.map_eq_some_iff] at h
            obtain ⟨l', h5, rfl⟩ := h
            exact .more hk hq hv ((ih l' hlen).1 h5)
          · intro h
            generalize hx : k ++ '=' :: (v ++ ';' :: r2) = x at h
            cases h with
            | nil => simp at hx
            | @stop s => exact absurd (split_unique hq (b := []) (by simp) hx).1 hk
            | last _ hk2 hv2 => obtain ⟨rfl, rfl⟩ := split_unique hq hk2 hx; simp at hv2
            | more _ hk2 hv2 hs =>
              obtain ⟨rfl, h6⟩ := split_unique hq hk2 hx
              obtain ⟨rfl, rfl⟩ := split_unique hv hv2 h6
              rw [(ih _ hlen).2 hs]; rfl

theorem blank_filter (s : Str) : s.filter (fun c => !isSpc c) = s.filter (fun c => ¬ Blank c) := by
  refine List.filter_congr (fun c _ => ?_)
  by_cases h : Blank c
  · simp [h, (isSpc_iff c).2 h]
  · have : isSpc c = false := by
      cases hh : isSpc c with
      | false => rfl
      | true => exact absurd ((isSpc_iff c).1 hh) h
    simp [h, this]

theorem fwText_nil {x ty : Str} {args : List (Str × Str)} (h : FwText x ty args) (hx : x = []) : ty = [] ∧ args = [] := by
  cases h with
  | none => exact ⟨rfl, rfl⟩
  | type h => exact absurd hx h
  | args => simp at hx

/-- `parseFw` gives exactly what the text says, and fails if it says nothing. -/
theorem parseFw_iff (s ty : Str) (args : List (Str × Str)) :
    parseFw s = some (ty, args) ↔ FwText (s.filter (fun c => ¬ Blank c)) ty args := by
  rw [parseFw, blank_filter]
  generalize s.filter (fun c => ¬ Blank c) = t
  rcases split_at ';' t with ⟨hq, h1, h2⟩ | ⟨w, r, rfl, hq, h1, h2⟩
  · rw [h1, h2]
    by_cases ht : t = []
    · subst ht
      rw [if_pos rfl]
      constructor
      · intro h; cases h; exact .none (.inl rfl)
      · intro h
        obtain ⟨rfl, rfl⟩ := fwText_nil h rfl
        rfl
    · rw [if_neg ht]
      constructor
      · intro h; cases h; exact .type ht hq
      · intro h
        cases h with
        | none h =>
          rcases h with h | h
          · exact absurd h ht
          · cases t with
            | nil => cases h
            | cons c l => cases h; simp at hq
        | type => rfl
        | args => simp at hq
  · rw [h1, h2]
    simp only
    by_cases hw : w = []
    · subst hw
      rw [if_pos rfl]
      constructor
      · intro h; cases h; exact .none (.inr rfl)
      · intro h
        generalize hx : [] ++ ';' :: r = x at h
        cases h with
        | none => rfl
        | type h h' => rw [← hx] at h'; simp at h'
        | args hk hk2 => exact absurd (split_unique hq hk2 hx).1.symm hk
    · rw [if_neg hw]
      have ih := parseFwArgs_iff (r.length + 1) r
      constructor
      · intro h
        rw [Option.map_eq_some_iff] at h
        obtain ⟨l, h3, h4⟩ := h
        cases h4
        exact .args hw hq ((ih _ (by omega)).1 h3)
      · intro h
        generalize hx : w ++ ';' :: r = x at h
        cases h with
        | none h =>
          exfalso
          rw [← hx] at h
          rcases h with h | h
          · simp at h
          · cases w with
            | nil => exact hw rfl
            | cons c l => cases h; simp at hq
        | type h h' => rw [← hx] at h'; simp at h'
        | args _ hk2 hs =>
          obtain ⟨rfl, rfl⟩ := split_unique hq hk2 hx
          rw [(ih _ (by omega)).2 hs]; rfl

/-! ## Maps -/

theorem foldl_insert (m l : List (Str × Str)) : l.foldl mapInsert m = merge m l := by
  induction l generalizing m with
  | nil => simp [merge, firsts]
  | cons p l ih =>
    rw [List.foldl_cons, ih]
    unfold mapInsert merge
    rw [firsts]
    by_cases h : p.1 ∈ m.map (·.1)
    · rw [if_pos h, List.filter_cons, if_neg (by simpa using h), List.filter_filter]
      congr 1
      refine List.filter_congr (fun q _ => ?_)
      by_cases hq : q.1 ∈ m.map Prod.fst
      · simp [hq]
      · have : q.1 ≠ p.1 := fun e => hq (by rw [e]; exact h)
        simp [hq, this]
    · rw [if_neg h, List.filter_cons, if_pos (by simpa using h), List.filter_filter, List.append_assoc, List.singleton_append]
      congr 2
      refine List.filter_congr (fun q _ => ?_)
      rw [← Bool.decide_and]
      simp only [List.map_append, List.mem_append, List.map_cons, List.map_nil, List.mem_singleton, not_or, ne_eq]

theorem merge_nil (l : List (Str × Str)) : merge [] l = firsts l := by simp [merge]

theorem parsMap_eq (s : Str) : parsMap s = firsts (parsePars s) := by rw [parsMap, foldl_insert, merge_nil]

end NodeAttr
end Verif
