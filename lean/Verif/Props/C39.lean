import Verif.Model.Uri
/-!
# C39: URIs

Printing and parsing, and the clients that `getClient` returns.
-/

set_option autoImplicit false

namespace Verif.Uri

/-- No white space. -/
def NoSp (s : Str) : Prop := ∀ c ∈ s, space c = false

/-- No character of `cs`. -/
def Without (cs : List Char) (s : Str) : Prop := ∀ c ∈ s, c ∉ cs

/-- A URI made of allowed characters: no white space anywhere; protocol, host and argument names not empty; in each part the
characters that end it do not occur. -/
structure Allowed (u : Uri) : Prop where
  sp1 : NoSp u.protocol
  sp2 : NoSp u.hostname
  sp3 : NoSp u.port
  sp4 : NoSp u.path
  sp5 : NoSp u.extension
  sp6 : ∀ a ∈ u.arguments, NoSp a.1 ∧ NoSp a.2
  protocol : u.protocol ≠ [] ∧ Without [':'] u.protocol
  hostname : u.hostname ≠ [] ∧ Without [':', '?'] u.hostname
  port : ∀ c ∈ u.port, punct c = false
  path : Without ['.', '?'] u.path
  extension : Without ['?'] u.extension
  arguments : ∀ a ∈ u.arguments, a.1 ≠ [] ∧ Without ['='] a.1 ∧ Without ['&'] a.2

/-! ## The primitive parsers -/

theorem skip_nosp {s : Str} (h : NoSp s) : skip s = s := by
  cases s with
  | nil => rfl
  | cons c r => simp [skip, h c (by simp)]

theorem lit_nosp {t s : Str} (h : NoSp s) : lit t s = if t.isPrefixOf s then some (s.drop t.length) else none := by
  simp [lit, skip_nosp h]

theorem lit1_cons {c : Char} {s : Str} (h : NoSp (c :: s)) : lit [c] (c :: s) = some s := by
  rw [lit_nosp h]; simp [List.isPrefixOf]

theorem lit1_none {c : Char} {s : Str} (h : NoSp s) (hs : s.head? ≠ some c) : lit [c] s = none := by
  rw [lit_nosp h]
  cases s with
  | nil => simp [List.isPrefixOf]
  | cons x r =>
    simp only [List.head?_cons, ne_eq, Option.some.injEq] at hs
    simp [List.isPrefixOf]
    exact fun e => hs e.symm

/-- `many` takes the part in front of the character that ends it. -/
theorem many_part (q : Char → Bool) {a b : Str} (ha : ∀ c ∈ a, space c = false ∧ q c = false) (hb : NoSp b)
    (hq : ∀ c, b.head? = some c → q c = true) : many (fun t => t.head?.any q) (a ++ b) = (a, b) := by
  induction a with
  | nil =>
    cases b with
    | nil => rfl
    | cons c r => simp [many, hb c (by simp), hq c rfl]
  | cons c a ih =>
    have := ih (fun x hx => ha x (List.mem_cons_of_mem _ hx))
    obtain ⟨h1, h2⟩ := ha c (by simp)
    simp [many, h1, h2, this]

/-- What `many` returns: the input consists of what it passed over and the rest; without its white space the former is the
value; the rest is empty or begins with a character that ends the part. -/
theorem many_spec (q : Char → Bool) (s : Str) :
    ∃ pre, s = pre ++ (many (fun t => t.head?.any q) s).2 ∧
      (many (fun t => t.head?.any q) s).1 = pre.filter (fun c => !space c) ∧
      (∀ c ∈ pre, space c = true ∨ q c = false) ∧
      (∀ c, (many (fun t => t.head?.any q) s).2.head? = some c → space c = false ∧ q c = true) := by
  induction s with
  | nil => exact ⟨[], rfl, rfl, by simp, by simp [many]⟩
  | cons c r ih =>
    obtain ⟨pre, h1, h2, h3, h4⟩ := ih
    simp only [many]
    split
    · rename_i hs
      refine ⟨c :: pre, by simp [← h1], by simp [hs, h2], ?_, h4⟩
      intro x hx
      rcases List.mem_cons.mp hx with rfl | hx
      · exact .inl hs
      · exact h3 x hx
    · rename_i hs
      simp only [Bool.not_eq_true] at hs
      split
      · rename_i hq
        exact ⟨[], rfl, rfl, by simp, by simpa [hs] using hq⟩
      · rename_i hq
        refine ⟨c :: pre, by simp [← h1], by simp [hs, h2], ?_, h4⟩
        intro x hx
        rcases List.mem_cons.mp hx with rfl | hx
        · exact .inr (by simpa using hq)
        · exact h3 x hx

theorem many_val {q : Char → Bool} {s : Str} {c : Char} (hc : c ∈ (many (fun t => t.head?.any q) s).1) :
    space c = false ∧ q c = false := by
  obtain ⟨pre, _, h2, h3, _⟩ := many_spec q s
  rw [h2] at hc
  obtain ⟨h4, h5⟩ := List.mem_filter.mp hc
  have h6 : space c = false := by simpa using h5
  exact ⟨h6, (h3 c h4).resolve_left (by simp [h6])⟩

theorem at_eq (cs : List Char) : at_ cs = fun t => t.head?.any (cs.contains ·) := rfl

theorem many_at {cs : List Char} {a b : Str} (ha : NoSp a) (hw : Without cs a) (hb : NoSp b)
    (hq : ∀ c, b.head? = some c → c ∈ cs) : many (at_ cs) (a ++ b) = (a, b) := by
  rw [at_eq]
  refine many_part _ (fun c hc => ⟨ha c hc, ?_⟩) hb (fun c hc => ?_)
  · simpa using hw c hc
  · simpa using hq c hc

theorem NoSp.append {a b : Str} (ha : NoSp a) (hb : NoSp b) : NoSp (a ++ b) := by
  intro c hc
  rcases List.mem_append.mp hc with h | h
  · exact ha c h
  · exact hb c h

theorem NoSp.cons {c : Char} {a : Str} (hc : space c = false) (ha : NoSp a) : NoSp (c :: a) := by
  intro x hx
  rcases List.mem_cons.mp hx with rfl | h
  · exact hc
  · exact ha x h

theorem optPart_some {c : Char} {q : Char → Bool} {a b : Str} (hc : space c = false) (hne : a ≠ [])
    (ha : ∀ x ∈ a, space x = false ∧ q x = false) (hb : NoSp b) (hq : ∀ x, b.head? = some x → q x = true) :
    optPart [c] (fun t => t.head?.any q) (c :: (a ++ b)) = .ok a b := by
  have h1 : NoSp (c :: (a ++ b)) := NoSp.cons hc (NoSp.append (fun x hx => (ha x hx).1) hb)
  simp only [optPart, lit1_cons h1, many_part q ha hb hq, hne, if_false]

theorem optPart_none {c : Char} {q : Char → Bool} {b : Str} (hb : NoSp b) (h : b.head? ≠ some c) :
    optPart [c] (fun t => t.head?.any q) b = .ok [] b := by
  simp only [optPart, lit1_none hb h]

/-! ## Printing and parsing again -/

theorem printArgs_nosp {as : List (Str × Str)} (h : ∀ a ∈ as, NoSp a.1 ∧ NoSp a.2) : NoSp (printArgs as) := by
  induction as with
  | nil => intro c hc; simp [printArgs] at hc
  | cons a as ih =>
    have ha := h a (by simp)
    cases as with
    | nil => exact NoSp.append ha.1 (NoSp.cons (by decide) ha.2)
    | cons b bs =>
      have := ih (fun x hx => h x (List.mem_cons_of_mem _ hx))
      simp only [printArgs, List.append_assoc, List.cons_append]
      exact NoSp.append ha.1 (NoSp.cons (by decide) (NoSp.append ha.2 (NoSp.cons (by decide) this)))

theorem pairs_print {as : List (Str × Str)} (h : ∀ a ∈ as, NoSp a.1 ∧ NoSp a.2)
    (hw : ∀ a ∈ as, a.1 ≠ [] ∧ Without ['='] a.1 ∧ Without ['&'] a.2) (n : Nat) (hn : as.length ≤ n) :
    pairs n (printArgs as) = .ok as [] := by
  induction as generalizing n with
  | nil =>
    cases n with
    | zero => rfl
    | succ n => simp [pairs, printArgs, many]
  | cons a as ih =>
    obtain ⟨n, rfl⟩ : ∃ m, n = m + 1 := ⟨n - 1, by simp at hn; omega⟩
    have ha := h a (by simp)
    have hwa := hw a (by simp)
    have ih' := ih (fun x hx => h x (List.mem_cons_of_mem _ hx)) (fun x hx => hw x (List.mem_cons_of_mem _ hx)) n
      (by simpa using hn)
    cases as with
    | nil =>
      have h1 : NoSp ('=' :: a.2) := NoSp.cons (by decide) ha.2
      have hm := many_at ha.1 hwa.2.1 h1 (by simp)
      have hv := many_at (b := []) ha.2 hwa.2.2 (by intro c hc; simp at hc) (by simp)
      simp only [List.append_nil] at hv
      simp only [pairs, printArgs, hm, hwa.1, if_false, lit1_cons h1, hv]
      have : lit ['&'] [] = none := lit1_none (by intro c hc; simp at hc) (by simp)
      simp only [this, Option.getD_none]
      simp only [printArgs] at ih'
      rw [ih']
    | cons b bs =>
      have hp : NoSp (printArgs (b :: bs)) := printArgs_nosp (fun x hx => h x (List.mem_cons_of_mem _ hx))
      have h2 : NoSp ('&' :: printArgs (b :: bs)) := NoSp.cons (by decide) hp
      have h1 : NoSp ('=' :: (a.2 ++ '&' :: printArgs (b :: bs))) := NoSp.cons (by decide) (NoSp.append ha.2 h2)
      have hm := many_at ha.1 hwa.2.1 h1 (by simp)
      have hv := many_at ha.2 hwa.2.2 h2 (by simp)
      have he : printArgs (a :: b :: bs) = a.1 ++ '=' :: (a.2 ++ '&' :: printArgs (b :: bs)) := by
        simp [printArgs]
      rw [he]
      simp only [pairs, hm, hwa.1, if_false, lit1_cons h1, hv, lit1_cons h2, Option.getD_some, ih']

theorem printArgs_length {as : List (Str × Str)} (hw : ∀ a ∈ as, a.1 ≠ []) : as.length ≤ (printArgs as).length := by
  induction as with
  | nil => simp
  | cons a as ih =>
    have := ih (fun x hx => hw x (List.mem_cons_of_mem _ hx))
    have ha : 0 < a.1.length := List.length_pos_iff.mpr (hw a (by simp))
    cases as with
    | nil => simp [printArgs]; omega
    | cons b bs => simp [printArgs] at this ⊢; omega

/-- C39, printing and parsing: every URI made of allowed characters is returned by parsing what `toString` prints, to the last
character, provided that path and extension only occur together with a port. (Without a port the path is read as part of the host
name: `C39_violated_path`.) -/
theorem C39_roundtrip_partial (u : Uri) (h : Allowed u) (hp : u.port = [] → u.path = [] ∧ u.extension = []) :
    parse (print u) = .ok u [] := by
  obtain ⟨pr, ho, po, pa, ex, ar⟩ := u
  obtain ⟨s1, s2, s3, s4, s5, s6, ⟨hpr, wpr⟩, ⟨hho, who⟩, wpo, wpa, wex, war⟩ := h
  simp only at s1 s2 s3 s4 s5 s6 hpr wpr hho who wpo wpa wex war hp
  let A : Str := if ar = [] then [] else '?' :: printArgs ar
  let E : Str := (if ex = [] then [] else '.' :: ex) ++ A
  let P : Str := (if pa = [] then [] else '/' :: pa) ++ E
  let Q : Str := (if po = [] then [] else ':' :: po) ++ P
  have nA : NoSp A := by
    simp only [A]
    split
    · intro c hc; simp at hc
    · exact NoSp.cons (by decide) (printArgs_nosp s6)
  have hA : ∀ c, A.head? = some c → c = '?' := by
    intro c hc; simp only [A] at hc
    split at hc
    · simp at hc
    · simp at hc; exact hc.symm
  have nE : NoSp E := by
    simp only [E]
    split
    · exact nA
    · exact NoSp.append (NoSp.cons (by decide) s5) nA
  have hE : ∀ c, E.head? = some c → c = '.' ∨ c = '?' := by
    intro c hc; simp only [E] at hc
    split at hc
    · exact .inr (hA c (by simpa using hc))
    · simp at hc; exact .inl hc.symm
  have nP : NoSp P := by
    simp only [P]
    split
    · exact nE
    · exact NoSp.append (NoSp.cons (by decide) s4) nE
  have hP : ∀ c, P.head? = some c → c = '/' ∨ c = '.' ∨ c = '?' := by
    intro c hc; simp only [P] at hc
    split at hc
    · exact .inr (hE c (by simpa using hc))
    · simp at hc; exact .inl hc.symm
  have nQ : NoSp Q := by
    simp only [Q]
    split
    · exact nP
    · exact NoSp.append (NoSp.cons (by decide) s3) nP
  have hQ : ∀ c, Q.head? = some c → c = ':' ∨ c = '?' := by
    intro c hc; simp only [Q] at hc
    split at hc
    · rename_i he
      obtain ⟨e1, e2⟩ := hp he
      right
      simp only [P, E, e1, e2, if_true, List.nil_append] at hc
      exact hA c hc
    · simp at hc; exact .inl hc.symm
  have hprint : print ⟨pr, ho, po, pa, ex, ar⟩ = pr ++ (':' :: '/' :: '/' :: (ho ++ Q)) := by
    simp [print, Q, P, E, A]
  have n1 : NoSp (':' :: '/' :: '/' :: (ho ++ Q)) :=
    NoSp.cons (by decide) (NoSp.cons (by decide) (NoSp.cons (by decide) (NoSp.append s2 nQ)))
  have m1 := many_at s1 wpr n1 (by simp)
  have m2 : lit "://".toList (':' :: '/' :: '/' :: (ho ++ Q)) = some (ho ++ Q) := by
    rw [lit_nosp n1]; simp [List.isPrefixOf]
  have m3 := many_at s2 who nQ (fun c hc => by rcases hQ c hc with rfl | rfl <;> simp)
  have m4 : optPart [':'] (fun t => t.head?.any punct) Q = .ok po P := by
    simp only [Q]
    by_cases he : po = []
    · simp only [he, if_true, List.nil_append]
      exact optPart_none nP (fun hc => by rcases hP _ hc with h | h | h <;> revert h <;> decide)
    · simp only [he, if_false, List.cons_append]
      refine optPart_some (by decide) he (fun x hx => ⟨s3 x hx, wpo x hx⟩) nP (fun x hx => ?_)
      rcases hP x hx with rfl | rfl | rfl <;> decide
  have m5 : optPart ['/'] (at_ ['.', '?']) P = .ok pa E := by
    rw [at_eq]
    simp only [P]
    by_cases he : pa = []
    · simp only [he, if_true, List.nil_append]
      exact optPart_none nE (fun hc => by rcases hE _ hc with h | h <;> revert h <;> decide)
    · simp only [he, if_false, List.cons_append]
      refine optPart_some (by decide) he (fun x hx => ⟨s4 x hx, by simpa using wpa x hx⟩) nE (fun x hx => ?_)
      rcases hE x hx with rfl | rfl <;> decide
  have m6 : optPart ['.'] (at_ ['?']) E = .ok ex A := by
    rw [at_eq]
    simp only [E]
    by_cases he : ex = []
    · simp only [he, if_true, List.nil_append]
      exact optPart_none nA (fun hc => by have h := hA _ hc; revert h; decide)
    · simp only [he, if_false, List.cons_append]
      refine optPart_some (by decide) he (fun x hx => ⟨s5 x hx, by simpa using wex x hx⟩) nA (fun x hx => ?_)
      rw [hA x hx]; decide
  have m7 : optPairs A = .ok ar [] := by
    simp only [A]
    by_cases he : ar = []
    · simp only [he, if_true, optPairs]
      rw [lit1_none (by intro c hc; simp at hc) (by simp)]
    · simp only [he, if_false, optPairs, lit1_cons (NoSp.cons (by decide : space '?' = false) (printArgs_nosp s6))]
      exact pairs_print s6 war _ (printArgs_length fun a ha => (war a ha).1)
  rw [hprint]
  simp only [parse, m1, hpr, if_false, m2, m3, hho, m4, m5, m6, m7]

/-! ## Every URI that the parser returns -/

theorem optPart_ok {c : Char} {q : Char → Bool} {s a r : Str} (h : optPart [c] (fun t => t.head?.any q) s = .ok a r) :
    (∀ x ∈ a, space x = false ∧ q x = false) ∧ (a = [] → r = s ∧ lit [c] s = none) := by
  simp only [optPart] at h
  split at h
  · rename_i hl
    cases h
    exact ⟨by simp, fun _ => ⟨rfl, hl⟩⟩
  · split at h
    · cases h
    · rename_i hne
      cases h
      exact ⟨fun x hx => many_val hx, fun e => absurd e hne⟩

theorem pairs_ok {n : Nat} {s t : Str} {as : List (Str × Str)} (h : pairs n s = .ok as t) :
    ∀ a ∈ as, (NoSp a.1 ∧ NoSp a.2) ∧ a.1 ≠ [] ∧ Without ['='] a.1 ∧ Without ['&'] a.2 := by
  induction n generalizing s t as with
  | zero => simp [pairs] at h; simp [h.1]
  | succ n ih =>
    simp only [pairs] at h
    split at h
    · cases h; simp
    · rename_i hne
      split at h
      · cases h
      · split at h
        · rename_i hp
          cases h
          intro a ha
          rcases List.mem_cons.mp ha with rfl | ha
          · simp only
            rw [at_eq] at *
            refine ⟨⟨fun c hc => (many_val hc).1, fun c hc => ?_⟩, hne, fun c hc => ?_, fun c hc => ?_⟩
            · rw [at_eq] at hc; exact (many_val hc).1
            · simpa using (many_val hc).2
            · rw [at_eq] at hc; simpa using (many_val hc).2
          · exact ih hp a ha
        · rename_i x hx
          exact absurd h (by cases hh : pairs n _ <;> simp_all)

theorem lit1_head {c : Char} {s : Str} (h : ∀ x, s.head? = some x → space x = false) (hl : lit [c] s = none) : s.head? ≠ some c := by
  intro hs
  cases s with
  | nil => simp at hs
  | cons x r =>
    simp at hs; subst hs
    simp [lit, skip, h x rfl, List.isPrefixOf] at hl

/-- Every URI that the parser returns consists of allowed characters, and has path and extension only together with a port. -/
theorem parse_allowed {s rest : Str} {u : Uri} (h : parse s = .ok u rest) :
    Allowed u ∧ (u.port = [] → u.path = [] ∧ u.extension = []) := by
  simp only [parse] at h
  split at h
  · cases h
  rename_i hpr
  split at h
  · cases h
  rename_i r hl
  split at h
  · cases h
  rename_i hho
  split at h
  · cases h
  · cases h
  rename_i po r1 h1
  split at h
  · cases h
  · cases h
  rename_i pa r2 h2
  split at h
  · cases h
  · cases h
  rename_i ex r3 h3
  split at h
  · cases h
  · cases h
  rename_i ar r4 h4
  cases h
  rw [at_eq] at h2 h3
  have k1 := optPart_ok h1
  have k2 := optPart_ok h2
  have k3 := optPart_ok h3
  have k4 : ∀ a ∈ ar, (NoSp a.1 ∧ NoSp a.2) ∧ a.1 ≠ [] ∧ Without ['='] a.1 ∧ Without ['&'] a.2 := by
    simp only [optPairs] at h4
    split at h4
    · cases h4; simp
    · exact pairs_ok h4
  constructor
  · constructor
    · intro c hc; rw [at_eq] at hc; exact (many_val hc).1
    · intro c hc; rw [at_eq] at hc; exact (many_val hc).1
    · intro c hc; exact (k1.1 c hc).1
    · intro c hc; exact (k2.1 c hc).1
    · intro c hc; exact (k3.1 c hc).1
    · intro a ha; exact (k4 a ha).1
    · refine ⟨hpr, fun c hc => ?_⟩
      rw [at_eq] at hc; simpa using (many_val hc).2
    · refine ⟨hho, fun c hc => ?_⟩
      rw [at_eq] at hc; simpa using (many_val hc).2
    · intro c hc; exact (k1.1 c hc).2
    · intro c hc; simpa using (k2.1 c hc).2
    · intro c hc; simpa using (k3.1 c hc).2
    · intro a ha; exact (k4 a ha).2
  · intro hpo
    simp only at hpo
    subst hpo
    obtain ⟨hr1, hl1⟩ := k1.2 rfl
    have hm := many_spec (([':', '?'] : List Char).contains ·) r
    obtain ⟨pre, _, _, _, hend⟩ := hm
    rw [← at_eq] at hend
    have hend' : ∀ x, r1.head? = some x → x = '?' := by
      intro x hx
      rw [hr1] at hx
      have hne := lit1_head (fun y hy => (hend y hy).1) hl1
      have := (hend x hx).2
      simp at this
      rcases this with rfl | rfl
      · exact absurd hx hne
      · rfl
    have hsp : ∀ x, r1.head? = some x → space x = false := fun x hx => by rw [hend' x hx]; decide
    have nolit : ∀ c, c ≠ '?' → lit [c] r1 = none := by
      intro c hc
      simp only [lit]
      have : (skip r1).head? ≠ some c := by
        cases r1 with
        | nil => simp [skip]
        | cons y ys =>
          have hy := hsp y rfl
          have hy2 := hend' y rfl
          simp only [skip, List.dropWhile_cons, hy]
          simp [hy2]
          exact fun e => hc e.symm
      split
      · rename_i hpre
        exfalso
        cases hs : skip r1 with
        | nil => rw [hs] at hpre; simp [List.isPrefixOf] at hpre
        | cons y ys =>
          rw [hs] at hpre this
          simp [List.isPrefixOf] at hpre
          simp [hpre] at this
      · rfl
    have hpa : pa = [] ∧ r2 = r1 := by
      simp only [optPart, nolit '/' (by decide)] at h2
      cases h2; exact ⟨rfl, rfl⟩
    have hex : ex = [] := by
      simp only [hpa.2, optPart, nolit '.' (by decide)] at h3
      cases h3; rfl
    exact ⟨hpa.1, hex⟩

/-- C39, printing what was parsed: whatever string a URI was parsed from, it is returned again by parsing its printed form. -/
theorem C39_reparse (s rest : Str) (u : Uri) (h : parse s = .ok u rest) : parse (print u) = .ok u [] :=
  C39_roundtrip_partial u (parse_allowed h).1 (parse_allowed h).2

/-- C39 violation: without a port, path and extension are read as part of the host name. -/
theorem C39_violated_path :
    Allowed ⟨"p".toList, "host".toList, [], "a/b".toList, "xml".toList, []⟩ ∧
    parse (print ⟨"p".toList, "host".toList, [], "a/b".toList, "xml".toList, []⟩) =
      .ok ⟨"p".toList, "host/a/b.xml".toList, [], [], [], []⟩ [] := by
  refine ⟨⟨?_, ?_, ?_, ?_, ?_, ?_, ?_, ?_, ?_, ?_, ?_, ?_⟩, by decide +kernel⟩
  all_goals simp [NoSp, Without, space]

/-! ## The number of passes is no limit -/

theorem many_length (stop : Str → Bool) (s : Str) : (many stop s).1.length + (many stop s).2.length ≤ s.length := by
  induction s with
  | nil => simp [many]
  | cons c r ih =>
    simp only [many]
    split
    · simp; omega
    · split
      · simp
      · simp; omega

theorem lit_length {t s r : Str} (h : lit t s = some r) : r.length ≤ s.length := by
  simp only [lit] at h
  split at h
  · cases h
    have : (skip s).length ≤ s.length := (List.dropWhile_sublist _).length_le
    simp; omega
  · cases h

/-- The passes of `pairs` do not limit it. -/
theorem pairs_fuel (n m : Nat) (s : Str) (hn : s.length ≤ n) (hm : s.length ≤ m) : pairs n s = pairs m s := by
  induction n generalizing m s with
  | zero =>
    have : s = [] := List.length_eq_zero_iff.mp (by omega)
    subst this
    cases m <;> simp [pairs, many]
  | succ n ih =>
    cases m with
    | zero =>
      have : s = [] := List.length_eq_zero_iff.mp (by omega)
      subst this
      simp [pairs, many]
    | succ m =>
      simp only [pairs]
      split
      · rfl
      · rename_i hne
        have hpos := List.length_pos_iff.mpr hne
        split
        · rfl
        · rename_i r hr
          have h1 := many_length (at_ ['=']) s
          have h2 := lit_length hr
          have h3 := many_length (at_ ['&']) r
          have h4 : ((lit ['&'] (many (at_ ['&']) r).2).getD (many (at_ ['&']) r).2).length ≤ (many (at_ ['&']) r).2.length := by
            cases hl : lit ['&'] (many (at_ ['&']) r).2 with
            | none => simp
            | some t => exact lit_length hl
          rw [ih m _ (by omega) (by omega)]

/-! ## Clients -/

/-- The protocol that a URI names: what stands before the first colon, without white space, if it is followed by `//`. -/
def Names (uri p : Str) : Prop :=
  ∃ a r, uri = a ++ "://".toList ++ r ∧ ':' ∉ a ∧ p = a.filter (fun c => !space c) ∧ p ≠ []

theorem parse_names {s rest : Str} {u : Uri} (h : parse s = .ok u rest) : Names s u.protocol := by
  have h0 := h
  simp only [parse] at h
  split at h
  · cases h
  rename_i hpr
  split at h
  · cases h
  rename_i r hl
  have hu : u.protocol = (many (at_ [':']) s).1 := by
    split at h
    · cases h
    repeat' split at h
    all_goals first
      | cases h; rfl
      | cases h
  obtain ⟨pre, g1, g2, g3, g4⟩ := many_spec (([':'] : List Char).contains ·) s
  rw [← at_eq] at g1 g2 g4
  have hsk : skip (many (at_ [':']) s).2 = (many (at_ [':']) s).2 := by
    cases hm : (many (at_ [':']) s).2 with
    | nil => rfl
    | cons c r => simp [skip, (g4 c (by simp [hm])).1]
  simp only [lit, hsk] at hl
  split at hl
  · rename_i hpre
    cases hl
    obtain ⟨t, ht⟩ := List.isPrefixOf_iff_prefix.mp hpre
    refine ⟨pre, t, ?_, ?_, ?_, ?_⟩
    · rw [List.append_assoc, ht]; exact g1
    · intro hc
      rcases g3 ':' hc with h | h
      · exact absurd h (by decide)
      · simp at h
    · rw [hu, g2]
    · rw [hu]; exact hpr
  · cases hl

/-- C39, clients: a client is created only for a protocol that the URI names, that is registered, and that is built in or enabled
by the user. (That no client is registered under the empty name is needed: `C39_violated_empty`.) -/
theorem C39_client_partial (r : Registry) (enabled : List Str) (uri p : Str) (u : Uri) (hr : r.lookup [] = none)
    (h : getClient r enabled uri = .ok (p, u)) :
    Names uri p ∧ (r.lookup p = some false ∨ (r.lookup p = some true ∧ p ∈ enabled)) := by
  simp only [getClient] at h
  cases hp : parse uri with
  | throws => simp [hp] at h
  | fail => simp [hp, hr] at h
  | ok v rest =>
    simp only [hp] at h
    split at h
    · cases h
    · rename_i user hl
      split at h
      · cases h
      · rename_i hen
        cases h
        refine ⟨parse_names hp, ?_⟩
        cases user with
        | false => exact .inl hl
        | true =>
          right
          refine ⟨hl, ?_⟩
          simpa using hen

/-- The built-in registry, to which any number of clients have been added, none of them under the empty name. -/
theorem add_lookup (r : Registry) (p q : Str) (user : Bool) :
    (r.add p user).lookup q = match r.lookup q with
      | some x => some x
      | none => if q = p then some user else none := by
  simp only [Registry.add]
  split
  · rename_i h
    cases hq : r.lookup q with
    | some x => rfl
    | none =>
      by_cases e : q = p
      · subst e; simp [hq] at h
      · simp [e]
  · rename_i h
    rw [List.lookup_append]
    cases hq : r.lookup q with
    | some x => simp
    | none =>
      by_cases e : q = p
      · subst e; simp [List.lookup]
      · have : (q == p) = false := by simpa using e
        simp [List.lookup, e, this]

/-- C39, with the clients of uHAL and any that users have registered: a built-in protocol always gives the built-in client,
since registering it again has no effect. -/
theorem C39_registered (users : List Str) (p : Str) (h : builtIn.lookup p = some false) :
    (users.foldl (fun r q => Registry.add r q true) builtIn).lookup p = some false := by
  suffices H : ∀ r : Registry, r.lookup p = some false → (users.foldl (fun r q => Registry.add r q true) r).lookup p = some false from
    H _ h
  induction users with
  | nil => intro r hr; exact hr
  | cons q qs ih => intro r hr; exact ih _ (by rw [add_lookup, hr])

/-- C39, well-formed URIs: the printed form of a URI whose protocol is built in yields the client of that protocol, with exactly
the parts of the URI. -/
theorem C39_built_in_partial (users : List Str) (enabled : List Str) (u : Uri) (h : Allowed u)
    (hp : u.port = [] → u.path = [] ∧ u.extension = []) (hb : builtIn.lookup u.protocol = some false) :
    getClient (users.foldl (fun r q => Registry.add r q true) builtIn) enabled (print u) = .ok (u.protocol, u) := by
  simp [getClient, C39_roundtrip_partial u h hp, C39_registered users u.protocol hb]

/-- C39 violation (only if somebody registers a client under the empty name): a string that is not a URI gives that client,
because the result of the parser is ignored. -/
theorem C39_violated_empty :
    getClient (builtIn.add [] true) [[]] ":junk".toList = .ok ([], ⟨[], [], [], [], [], []⟩) ∧ ∀ p, ¬ Names ":junk".toList p := by
  refine ⟨rfl, ?_⟩
  rintro p ⟨a, r, h, hc, hp, hne⟩
  cases a with
  | nil => simp [hp] at hne
  | cons x a =>
    simp at h
    exact hc (by simp [← h.1])

/-! ## The hypotheses can be met -/

example : Allowed ⟨"chtcp-2.0".toList, "hub".toList, "10203".toList, "a/b".toList, "x.y".toList,
    [("target".toList, "board:50001".toList), ("x".toList, [])]⟩ := by
  constructor
  all_goals simp [NoSp, Without, space, punct]

example : print ⟨"chtcp-2.0".toList, "hub".toList, "10203".toList, [], [], [("target".toList, "board:50001".toList)]⟩ =
    "chtcp-2.0://hub:10203?target=board:50001".toList := by decide +kernel

example : parse " chtcp-2.0 ://hub:10203 ? target=board:50001&x = 1".toList =
    .ok ⟨"chtcp-2.0".toList, "hub".toList, "10203".toList, [], [], [("target".toList, "board:50001".toList), ("x".toList, ['1'])]⟩ [] := by
  decide +kernel

/-- What follows a port and belongs to nothing is ignored. -/
example : parse "ipbusudp-2.0://h:50001&junk".toList =
    .ok ⟨"ipbusudp-2.0".toList, "h".toList, "50001".toList, [], [], []⟩ "&junk".toList := by decide +kernel

example : builtIn.lookup [] = none ∧ builtIn.lookup "chtcp-2.0".toList = some false := by decide +kernel

example : getClient (builtIn.add "mine".toList true) [] "mine://h:1".toList = .error .protocolNotEnabled ∧
    getClient (builtIn.add "mine".toList true) ["mine".toList] "mine://h:1".toList =
      .ok ("mine".toList, ⟨"mine".toList, ['h'], ['1'], [], [], []⟩) ∧
    getClient builtIn [] "mine:/h".toList = .error .failedToParseURI ∧
    getClient builtIn [] "http://h".toList = .error .protocolDoesNotExist := ⟨rfl, rfl, rfl, rfl⟩

end Verif.Uri
