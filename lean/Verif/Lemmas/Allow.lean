import Verif.Model.Allow
import Verif.Spec.Allow
/-!
# The allowlist: from text to decision
-/

set_option autoImplicit false
set_option linter.unusedSimpArgs false

namespace Verif.Allow
open Verif.TraMgr (Addr)
open Verif.Spec.Allow (Entry Num value Part PortText Text Covers Listed)

theorem dropWhile_rep (c : Char) (n : Nat) (s : List Char) :
    (List.replicate n c ++ s).dropWhile (· == c) = s.dropWhile (· == c) := by
  induction n with
  | zero => simp
  | succ n ih => simp [List.replicate_succ, ih]

theorem dropWhile_not (c : Char) (s t : List Char) (h : c ∉ s) (hs : s ≠ []) : (s ++ t).dropWhile (· == c) = s ++ t := by
  cases s with
  | nil => exact absurd rfl hs
  | cons x s =>
    have : (x == c) = false := by
      simp only [beq_eq_false_iff_ne]
      rintro rfl
      exact h List.mem_cons_self
    simp [List.dropWhile_cons, this]

theorem dropWhile_all (c : Char) (n : Nat) : (List.replicate n c).dropWhile (· == c) = [] := by
  rw [← List.append_nil (List.replicate n c), dropWhile_rep]
  rfl

/-- Stripping removes exactly the padding. -/
theorem strip_pad (c : Char) (i n : Nat) (s : List Char) (h : c ∉ s) :
    strip c (List.replicate i c ++ s ++ List.replicate n c) = s := by
  unfold strip
  rw [List.append_assoc, dropWhile_rep]
  by_cases hs : s = []
  · subst hs
    simp [dropWhile_all]
  · rw [dropWhile_not c s _ h hs, List.reverse_append, List.reverse_replicate, dropWhile_rep]
    have := dropWhile_not c s.reverse [] (by simpa using h) (by simpa using hs)
    simp only [List.append_nil] at this
    rw [this, List.reverse_reverse]

theorem strip_none (c : Char) (s : List Char) (h : c ∉ s) : strip c s = s := by
  have := strip_pad c 0 0 s h
  simpa using this

/-- Cutting at the end does not reach an ordinary character. -/
theorem dropWhile_append_keep (c x : Char) (hx : x ≠ c) (r t : List Char) :
    ∃ r', (r ++ x :: t).dropWhile (· == c) = r' ++ x :: t := by
  induction r with
  | nil =>
    have : (x == c) = false := by simpa using hx
    exact ⟨[], by simp [List.dropWhile_cons, this]⟩
  | cons y r ih =>
    by_cases e : y = c
    · obtain ⟨r', ih⟩ := ih
      exact ⟨r', by simp [List.dropWhile_cons, e, ih]⟩
    · exact ⟨y :: r, by simp [List.dropWhile_cons, e]⟩

theorem strip_keep (c x : Char) (hx : x ≠ c) (i : Nat) (pre rest : List Char) (h : c ∉ pre) :
    ∃ r, strip c (List.replicate i c ++ (pre ++ x :: rest)) = pre ++ x :: r := by
  unfold strip
  rw [dropWhile_rep]
  have h1 : (pre ++ x :: rest).dropWhile (· == c) = pre ++ x :: rest := by
    have := dropWhile_not c (pre ++ [x]) rest (by simp [h]; exact fun e => hx e.symm) (by simp)
    simpa using this
  rw [h1]
  have h2 : (pre ++ x :: rest).reverse = rest.reverse ++ x :: pre.reverse := by simp
  rw [h2]
  obtain ⟨r', hr⟩ := dropWhile_append_keep c x hx rest.reverse pre.reverse
  rw [hr]
  exact ⟨r'.reverse, by simp⟩

/-! ## Numbers -/

theorem isDig_iff (c : Char) : isDig c = true ↔ 48 ≤ c.toNat ∧ c.toNat ≤ 57 := by
  simp [isDig]

theorem leadNat_num (s : List Char) (acc : Nat) (h : ∀ x ∈ s, 48 ≤ x.toNat ∧ x.toNat ≤ 57) :
    leadNat s acc = s.foldl (fun n x => 10 * n + (x.toNat - 48)) acc := by
  induction s generalizing acc with
  | nil => rfl
  | cons c s ih =>
    have hc := (isDig_iff c).mpr (h c List.mem_cons_self)
    have e : acc * 10 + digVal c = 10 * acc + (c.toNat - 48) := by
      unfold digVal
      have : '0'.toNat = 48 := rfl
      rw [this]
      omega
    simp only [leadNat, hc, if_true, List.foldl_cons, e]
    exact ih _ fun x hx => h x (List.mem_cons_of_mem _ hx)

theorem toInteger_num (s : List Char) (h : Num s) : toInteger s = some (value s : Int) := by
  obtain ⟨hne, hd⟩ := h
  cases s with
  | nil => exact absurd rfl hne
  | cons c s =>
    have hc := hd c List.mem_cons_self
    have hp : c ≠ '+' := by rintro rfl; exact absurd hc.1 (by decide)
    have hm : c ≠ '-' := by rintro rfl; exact absurd hc.1 (by decide)
    have e : toInteger (c :: s) = if isDig c then some (leadNat (c :: s) 0 : Int) else none := by
      cases s <;> simp [toInteger, hp, hm]
    rw [e, if_pos ((isDig_iff c).mpr hc), leadNat_num _ _ hd]
    rfl

theorem num_notin (s : List Char) (h : Num s) (c : Char) (hc : c.toNat < 48 ∨ 57 < c.toNat) : c ∉ s := by
  intro m
  have := h.2 c m
  omega

/-! ## The regular expression and the split -/

theorem digs13_ok (k : List Char → Bool) (s t : List Char) (h : Num s) (hl : s.length ≤ 3) (hk : k t = true) :
    digs13 k (s ++ t) = true := by
  obtain ⟨hne, hd⟩ := h
  match s, hne, hd, hl with
  | [a], _, hd, _ =>
    have := (isDig_iff a).mpr (hd a (by simp))
    simp [digs13, this, hk]
  | [a, b], _, hd, _ =>
    have h1 := (isDig_iff a).mpr (hd a (by simp))
    have h2 := (isDig_iff b).mpr (hd b (by simp))
    simp [digs13, h1, h2, hk]
  | [a, b, c], _, hd, _ =>
    have h1 := (isDig_iff a).mpr (hd a (by simp))
    have h2 := (isDig_iff b).mpr (hd b (by simp))
    have h3 := (isDig_iff c).mpr (hd c (by simp))
    simp [digs13, h1, h2, h3, hk]
  | _ :: _ :: _ :: _ :: _, _, _, hl => simp at hl

theorem split_sep (s t : List Char) (c : Char) (hc : c = '.' ∨ c = ':') (h : ∀ x ∈ s, x ≠ '.' ∧ x ≠ ':') :
    split (s ++ c :: t) = s :: split t := by
  induction s with
  | nil => rcases hc with rfl | rfl <;> simp [split]
  | cons x s ih =>
    have hx := h x List.mem_cons_self
    have ih := ih fun y hy => h y (List.mem_cons_of_mem _ hy)
    simp [split, hx.1, hx.2, ih]

theorem split_end (s : List Char) (h : ∀ x ∈ s, x ≠ '.' ∧ x ≠ ':') : split s = [s] := by
  induction s with
  | nil => rfl
  | cons x s ih =>
    have hx := h x List.mem_cons_self
    have ih := ih fun y hy => h y (List.mem_cons_of_mem _ hy)
    simp [split, hx.1, hx.2, ih]

theorem num_nosep (s : List Char) (h : Num s) : ∀ x ∈ s, x ≠ '.' ∧ x ≠ ':' := by
  intro x hx
  constructor
  · rintro rfl
    exact num_notin s h '.' (by decide) hx
  · rintro rfl
    exact num_notin s h ':' (by decide) hx

/-- The key under which an entry is stored. -/
def keyOf (e : Entry) : Key := (some (e.a : Int), some (e.b : Int), some (e.c : Int), some (e.d : Int))

/-- The port that is stored. -/
def portOf (e : Entry) : Port := match e.port with
  | none => .any
  | some p => .is (some (p : Int))

theorem text_first (s : List Char) (e : Entry) (h : Text s e) : ∃ x t, s = x :: t ∧ 48 ≤ x.toNat ∧ x.toNat ≤ 57 := by
  obtain ⟨sa, sb, sc, sd, sp, _, ha, hb, hc, hd, hp, v⟩ := h
  obtain ⟨⟨hne, hdig⟩, _, _⟩ := ha
  cases sa with
  | nil => exact absurd rfl hne
  | cons x t => exact ⟨x, _, rfl, hdig x List.mem_cons_self⟩

theorem text_notin (s : List Char) (e : Entry) (h : Text s e) (c : Char) (hc : c.toNat < 46) : c ∉ s := by
  obtain ⟨sa, sb, sc, sd, sp, _, ha, hb, hc', hd, hp, v⟩ := h
  have h1 := num_notin sa ha.1 c (Or.inl (by omega))
  have h2 := num_notin sb hb.1 c (Or.inl (by omega))
  have h3 := num_notin sc hc'.1 c (Or.inl (by omega))
  have h4 := num_notin sd hd.1 c (Or.inl (by omega))
  have hdot : c ≠ '.' := by rintro rfl; exact absurd hc (by decide)
  have hcol : c ≠ ':' := by rintro rfl; exact absurd hc (by decide)
  have h5 : c ∉ sp := by
    generalize hep : e.port = ep at hp
    cases hp with
    | none => simp
    | some s hs =>
      have := num_notin s hs c (Or.inl (by omega))
      simp [hcol, this]
  simp [h1, h2, h3, h4, h5, hdot]

theorem text_match (s : List Char) (e : Entry) (h : Text s e) : matches? s = true := by
  have hf := text_first s e h
  obtain ⟨sa, sb, sc, sd, sp, _, ha, hb, hc, hd, hp, v⟩ := h
  have m : matchHere (sa ++ '.' :: (sb ++ '.' :: (sc ++ '.' :: (sd ++ sp)))) = true := by
    unfold matchHere
    refine digs13_ok _ _ _ ha.1 ha.2.1 ?_
    simp only [anyChar, Bool.and_eq_true]
    refine ⟨by decide, digs13_ok _ _ _ hb.1 hb.2.1 ?_⟩
    simp only [anyChar, Bool.and_eq_true]
    refine ⟨by decide, digs13_ok _ _ _ hc.1 hc.2.1 ?_⟩
    simp only [anyChar, Bool.and_eq_true]
    exact ⟨by decide, digs13_ok _ _ _ hd.1 hd.2.1 rfl⟩
  obtain ⟨x, t, e', _⟩ := hf
  rw [e'] at m ⊢
  simp [matches?, m]

theorem text_split (s : List Char) (e : Entry) (h : Text s e) :
    (match split s with
      | [a, b, c, d] => Line.add (toInteger a, toInteger b, toInteger c, toInteger d) .any
      | [a, b, c, d, p] => .add (toInteger a, toInteger b, toInteger c, toInteger d) (.is (toInteger p))
      | _ => .crash) = Line.add (keyOf e) (portOf e) := by
  obtain ⟨sa, sb, sc, sd, sp, _, ha, hb, hc, hd, hp, v⟩ := h
  rw [split_sep _ _ _ (Or.inl rfl) (num_nosep sa ha.1), split_sep _ _ _ (Or.inl rfl) (num_nosep sb hb.1),
    split_sep _ _ _ (Or.inl rfl) (num_nosep sc hc.1)]
  have k : (toInteger sa, toInteger sb, toInteger sc, toInteger sd) = keyOf e := by
    rw [toInteger_num _ ha.1, toInteger_num _ hb.1, toInteger_num _ hc.1, toInteger_num _ hd.1, ha.2.2, hb.2.2, hc.2.2, hd.2.2]
    rfl
  unfold portOf
  generalize hep : e.port = ep at hp
  cases hp with
  | none =>
    rw [List.append_nil, split_end _ (num_nosep sd hd.1)]
    simp only [k]
  | some s hs =>
    rw [split_sep _ _ _ (Or.inr rfl) (num_nosep sd hd.1), split_end _ (num_nosep s hs)]
    simp only [k, toInteger_num _ hs]

/-! ## Lines -/

theorem notin_rep (c d : Char) (n : Nat) (h : c ≠ d) : c ∉ List.replicate n d := by
  intro m
  exact h (List.eq_of_mem_replicate m)

theorem parseLine_blank (i j k : Nat) :
    parseLine (List.replicate i '\t' ++ List.replicate j ' ' ++ List.replicate k '\t') = .skip := by
  have : trim (List.replicate i '\t' ++ List.replicate j ' ' ++ List.replicate k '\t') = [] := by
    unfold trim
    rw [strip_none '\n', strip_pad '\t' i k _ (notin_rep _ _ _ (by decide))]
    · have := strip_pad ' ' j 0 [] (by simp)
      simpa using this
    · simp only [List.mem_append, not_or]
      exact ⟨⟨notin_rep _ _ _ (by decide), notin_rep _ _ _ (by decide)⟩, notin_rep _ _ _ (by decide)⟩
  unfold parseLine
  rw [this]

theorem parseLine_comment (i j : Nat) (s : List Char) (h : '\n' ∉ s) :
    parseLine (List.replicate i '\t' ++ (List.replicate j ' ' ++ '#' :: s)) = .skip := by
  have : ∃ r, trim (List.replicate i '\t' ++ (List.replicate j ' ' ++ '#' :: s)) = '#' :: r := by
    unfold trim
    rw [strip_none '\n']
    · obtain ⟨r, hr⟩ := strip_keep '\t' '#' (by decide) i (List.replicate j ' ') s (notin_rep _ _ _ (by decide))
      rw [hr]
      obtain ⟨r', hr'⟩ := strip_keep ' ' '#' (by decide) j [] r (by simp)
      exact ⟨r', by simpa using hr'⟩
    · simp only [List.mem_append, List.mem_cons, not_or]
      exact ⟨notin_rep _ _ _ (by decide), notin_rep _ _ _ (by decide), by decide, h⟩
  obtain ⟨r, hr⟩ := this
  unfold parseLine
  rw [hr]
  rfl

theorem parseLine_entry (i j k n : Nat) (s : List Char) (e : Entry) (h : Text s e) :
    parseLine (List.replicate i '\t' ++ (List.replicate j ' ' ++ s ++ List.replicate k ' ') ++ List.replicate n '\t')
      = .add (keyOf e) (portOf e) := by
  have ht : trim (List.replicate i '\t' ++ (List.replicate j ' ' ++ s ++ List.replicate k ' ') ++ List.replicate n '\t') = s := by
    unfold trim
    rw [strip_none '\n', strip_pad '\t' i n, strip_pad ' ' j k]
    · exact text_notin s e h ' ' (by decide)
    · simp only [List.mem_append, not_or]
      exact ⟨⟨notin_rep _ _ _ (by decide), text_notin s e h '\t' (by decide)⟩, notin_rep _ _ _ (by decide)⟩
    · simp only [List.mem_append, not_or]
      exact ⟨⟨notin_rep _ _ _ (by decide), ⟨notin_rep _ _ _ (by decide), text_notin s e h '\n' (by decide)⟩,
        notin_rep _ _ _ (by decide)⟩, notin_rep _ _ _ (by decide)⟩
  have hm := text_match s e h
  have hs := text_split s e h
  obtain ⟨x, t, rfl, hx⟩ := text_first s e h
  have hh : x ≠ '#' := by rintro rfl; exact absurd hx.1 (by decide)
  unfold parseLine
  rw [ht]
  split
  · rename_i e'; cases e'
  · rename_i e'
    simp only [List.cons.injEq] at e'
    exact absurd e'.1 hh
  · rw [if_pos hm]
    exact hs

/-! ## The file -/

theorem parseLines_file (ls : List (List Char)) (es : List Entry) (h : Spec.Allow.File ls es) (d : Dict) :
    parseLines ls d = .ok ((es.map fun e => (keyOf e, portOf e)).reverse ++ d) := by
  induction h generalizing d with
  | nil => simp [parseLines]
  | @skip l ls es hl _ ih =>
    have : parseLine l = .skip := by
      cases hl with
      | blank i j k => exact parseLine_blank i j k
      | comment i j s hs => exact parseLine_comment i j s hs
    simp [parseLines, this, ih]
  | @add l e ls es hl _ ih =>
    have : parseLine l = .add (keyOf e) (portOf e) := by
      cases hl with
      | entry i j k n s _ hs => exact parseLine_entry i j k n s e hs
    simp [parseLines, this, ih, store]

theorem file_valid (ls : List (List Char)) (es : List Entry) (h : Spec.Allow.File ls es) : ∀ e ∈ es, e.Valid := by
  induction h with
  | nil => simp
  | skip hl _ ih => exact ih
  | @add l e ls es hl _ ih =>
    intro e' he
    rcases List.mem_cons.mp he with rfl | he
    · cases hl with
      | entry i j k n s _ hs =>
        obtain ⟨sa, sb, sc, sd, sp, _, ha, hb, hc, hd, hp, v⟩ := hs
        exact v
    · exact ih e' he

theorem key_ip (e : Entry) (v : e.Valid) (ip : Nat) (h : ip < 4294967296) : keyOf e = ipKey ip ↔ ip = e.ip := by
  obtain ⟨h1, h2, h3, h4⟩ := v
  simp only [keyOf, ipKey, Prod.mk.injEq, Option.some.injEq, Int.natCast_inj, Entry.ip]
  constructor
  · rintro ⟨a, b, c, d⟩
    omega
  · rintro rfl
    refine ⟨?_, ?_, ?_, ?_⟩ <;> omega

end Verif.Allow
