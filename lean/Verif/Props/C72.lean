import Verif.Model.Files
import Verif.Spec.Files
/-!
# C72: files and web pages reach the callback as they are
-/

set_option autoImplicit false
set_option linter.unusedSimpArgs false

namespace Verif.Files

open Verif.Uri (space skip lit many at_)
open Verif.Make (isDigit decVal)

/-! ## Characters -/

theorem blank_iff (c : Char) : space c = true ↔ blank c := by
  have e : ∀ d : Char, c = d ↔ c.toNat = d.toNat := fun d => ⟨fun h => h ▸ rfl, fun h => Char.toNat_inj.mp h⟩
  unfold space blank
  rw [decide_eq_true_eq]
  constructor
  · rintro (h | ⟨h1, h2⟩)
    · exact Or.inl h
    · have : c.toNat = 9 ∨ c.toNat = 10 ∨ c.toNat = 11 ∨ c.toNat = 12 ∨ c.toNat = 13 := by omega
      rcases this with h | h | h | h | h
      · exact Or.inr (Or.inl ((e _).2 h))
      · exact Or.inr (Or.inr (Or.inl ((e _).2 h)))
      · exact Or.inr (Or.inr (Or.inr (Or.inl ((e _).2 h))))
      · exact Or.inr (Or.inr (Or.inr (Or.inr (Or.inl ((e _).2 h)))))
      · exact Or.inr (Or.inr (Or.inr (Or.inr (Or.inr ((e _).2 h)))))
  · rintro (h | h | h | h | h | h)
    · exact Or.inl h
    all_goals (subst h; right; decide)

theorem not_blank {c : Char} (h : ¬ blank c) : space c = false := by
  cases hs : space c
  · rfl
  · exact absurd ((blank_iff c).1 hs) h

theorem digit_of {c : Char} (h : '0' ≤ c ∧ c ≤ '9') : isDigit c = true := by
  unfold isDigit
  rw [decide_eq_true_eq]
  have h1 : '0'.toNat ≤ c.toNat := h.1
  have h2 : c.toNat ≤ '9'.toNat := h.2
  exact ⟨h1, h2⟩

theorem digit_facts {c : Char} (h : isDigit c = true) : space c = false ∧ c ≠ '-' ∧ c ≠ '+' := by
  unfold isDigit at h
  rw [decide_eq_true_eq] at h
  refine ⟨?_, ?_, ?_⟩
  · cases hs : space c
    · rfl
    · unfold space at hs
      rw [decide_eq_true_eq] at hs
      rcases hs with rfl | hs
      · exact absurd h (by decide)
      · omega
  · rintro rfl; exact absurd h (by decide)
  · rintro rfl; exact absurd h (by decide)

theorem skip_cons {c : Char} (r : Str) (h : space c = false) : skip (c :: r) = c :: r := by
  simp [skip, List.dropWhile, h]

theorem skip_blank (r : Str) : skip (' ' :: r) = skip r := by
  simp [skip, List.dropWhile, show space ' ' = true by decide]

theorem sign_cons {c : Char} (r : Str) (h1 : c ≠ '-') (h2 : c ≠ '+') : sign (c :: r) = (false, c :: r) := by
  unfold sign
  split
  · next h => exact absurd (List.cons.inj h).1 h1
  · next h => exact absurd (List.cons.inj h).1 h2
  · rfl

theorem take_run (p : Char → Bool) (a : Str) (c : Char) (r : Str) (ha : ∀ x ∈ a, p x = true) (hc : p c = false) :
    (a ++ c :: r).takeWhile p = a ∧ (a ++ c :: r).dropWhile p = c :: r := by
  induction a with
  | nil => simp [List.takeWhile, List.dropWhile, hc]
  | cons x a ih =>
    have hx := ha x (by simp)
    obtain ⟨i1, i2⟩ := ih (fun y hy => ha y (by simp [hy]))
    simp [List.takeWhile, List.dropWhile, hx, i1, i2]

/-! ## The parser -/

theorem doubleP_text (v1 v2 rest : Str) (h1 : v1 ≠ []) (d1 : ∀ c ∈ v1, isDigit c = true) (d2 : ∀ c ∈ v2, isDigit c = true) :
    doubleP (v1 ++ '.' :: v2 ++ ' ' :: rest) = some (' ' :: rest) := by
  cases v1 with
  | nil => exact absurd rfl h1
  | cons c t =>
    obtain ⟨f1, f2, f3⟩ := digit_facts (d1 c (by simp))
    have e : skip ((c :: t) ++ '.' :: v2 ++ ' ' :: rest) = (c :: t) ++ '.' :: (v2 ++ ' ' :: rest) := by
      rw [List.append_assoc, List.cons_append]
      exact skip_cons _ f1
    have g : (sign ((c :: t) ++ '.' :: (v2 ++ ' ' :: rest))).2 = (c :: t) ++ '.' :: (v2 ++ ' ' :: rest) := by
      rw [List.cons_append, sign_cons _ f2 f3]
    obtain ⟨a1, a2⟩ := take_run isDigit (c :: t) '.' (v2 ++ ' ' :: rest) d1 (by decide)
    obtain ⟨b1, b2⟩ := take_run isDigit v2 ' ' rest d2 (by decide)
    unfold doubleP
    simp only [e, g, a1, a2, b1, b2]
    simp [expo]

theorem digit_val (n : Nat) : isDigit (digit n) = true ∧ (digit n).toNat - 48 = n % 10 := by
  have h : ∀ k : Fin 10, isDigit (Char.ofNat (48 + k.1)) = true ∧ (Char.ofNat (48 + k.1)).toNat - 48 = k.1 := by decide
  exact h ⟨n % 10, Nat.mod_lt _ (by decide)⟩

theorem intP_text (n : Nat) (rest : Str) (hn : n < 1000) :
    intP (' ' :: [digit (n / 100), digit (n / 10), digit n] ++ ' ' :: rest) = some ((n : Int), ' ' :: rest) := by
  obtain ⟨a1, a2⟩ := digit_val (n / 100)
  obtain ⟨b1, b2⟩ := digit_val (n / 10)
  obtain ⟨c1, c2⟩ := digit_val n
  obtain ⟨f1, f2, f3⟩ := digit_facts a1
  have e : skip (' ' :: [digit (n / 100), digit (n / 10), digit n] ++ ' ' :: rest)
      = [digit (n / 100), digit (n / 10), digit n] ++ ' ' :: rest := by
    rw [List.cons_append, skip_blank]
    exact skip_cons _ f1
  have g : sign ([digit (n / 100), digit (n / 10), digit n] ++ ' ' :: rest)
      = (false, [digit (n / 100), digit (n / 10), digit n] ++ ' ' :: rest) := sign_cons _ f2 f3
  obtain ⟨t1, t2⟩ := take_run isDigit [digit (n / 100), digit (n / 10), digit n] ' ' rest
    (by intro x hx; simp at hx; rcases hx with rfl | rfl | rfl <;> assumption) (by decide)
  have v : decVal [digit (n / 100), digit (n / 10), digit n] = n := by
    simp only [decVal, List.foldl_cons, List.foldl_nil, a2, b2, c2]
    omega
  unfold intP
  simp only [e, g, t1, t2, v]
  have : n < 2 ^ 31 := by omega
  simp [this]

/-- A run of characters none of which is a carriage return is passed over. -/
theorem upTo_run (t a r : Str) (ha : '\r' ∉ a) :
    upTo ('\r' :: t) (a ++ r) = (a ++ (upTo ('\r' :: t) r).1, (upTo ('\r' :: t) r).2) := by
  induction a with
  | nil => rfl
  | cons c a ih =>
    have hc : ¬ '\r' = c := fun h => ha (List.mem_cons.2 (Or.inl h))
    have ih := ih (fun h => ha (List.mem_cons.2 (Or.inr h)))
    rw [List.cons_append, upTo]
    have : ('\r' :: t).isPrefixOf (c :: (a ++ r)) = false := by simp [List.isPrefixOf, hc]
    rw [this, ih]
    rfl

theorem upTo_here (t r : Str) : upTo ('\r' :: t) ('\r' :: t ++ r) = ([], '\r' :: t ++ r) := by
  have : ('\r' :: t).isPrefixOf ('\r' :: (t ++ r)) = true := by simp [List.isPrefixOf]
  rw [List.cons_append, upTo, this]
  rfl

theorem part_line (a r : Str) (h : PlainLine a) : part crlf (' ' :: (a ++ crlf ++ r)) = some (a, r) := by
  obtain ⟨h1, c, t, rfl, h2⟩ := h
  have e : skip (' ' :: (c :: t ++ crlf ++ r)) = (c :: t) ++ (crlf ++ r) := by
    rw [skip_blank, List.append_assoc, List.cons_append]
    exact skip_cons _ (not_blank h2)
  have u : upTo crlf ((c :: t) ++ (crlf ++ r)) = (c :: t, crlf ++ r) := by
    rw [crlf, upTo_run _ _ _ h1, upTo_here]
    simp
  unfold part
  simp only [e, u]
  simp [crlf, List.isPrefixOf]

theorem block_run (hs : List Str) (body : Str) (ne : hs ≠ []) (h : ∀ x ∈ hs, PlainLine x) :
    ∃ j, j ≠ [] ∧ upTo (crlf ++ crlf) (hs.flatMap (fun h => h ++ crlf) ++ crlf ++ body) = (j, crlf ++ crlf ++ body) := by
  induction hs with
  | nil => exact absurd rfl ne
  | cons a hs ih =>
    obtain ⟨h1, c, t, rfl, h2⟩ := h a (by simp)
    cases hs with
    | nil =>
      refine ⟨c :: t, by simp, ?_⟩
      have := upTo_run ['\n', '\r', '\n'] (c :: t) (crlf ++ crlf ++ body) h1
      have g := upTo_here ['\n', '\r', '\n'] body
      simp [crlf] at this g ⊢
      rw [this]
      simp [g]
    | cons b hs =>
      obtain ⟨j, hj, ih⟩ := ih (by simp) (fun x hx => h x (by simp [hx]))
      obtain ⟨k1, d, u, rfl, k2⟩ := h b (by simp)
      have hd : ¬ '\r' = d := by rintro rfl; exact k2 (by simp [blank])
      refine ⟨c :: t ++ '\r' :: '\n' :: j, by simp, ?_⟩
      have s1 : upTo (crlf ++ crlf) (crlf ++ (((d :: u) :: hs).flatMap (fun h => h ++ crlf) ++ crlf ++ body))
          = ('\r' :: '\n' :: j, crlf ++ crlf ++ body) := by
        simp only [List.flatMap_cons, List.cons_append] at ih ⊢
        simp only [crlf, List.cons_append, List.nil_append] at ih ⊢
        rw [upTo, if_neg (by simp [List.isPrefixOf, hd]), upTo, if_neg (by simp [List.isPrefixOf]), ih]
      have e : (((c :: t) :: (d :: u) :: hs).flatMap (fun h => h ++ crlf) ++ crlf ++ body)
          = (c :: t) ++ (crlf ++ (((d :: u) :: hs).flatMap (fun h => h ++ crlf) ++ crlf ++ body)) := by
        simp
      rw [e]
      have r := upTo_run ['\n', '\r', '\n'] (c :: t) (crlf ++ (((d :: u) :: hs).flatMap (fun h => h ++ crlf) ++ crlf ++ body)) h1
      rw [show crlf ++ crlf = '\r' :: ['\n', '\r', '\n'] from rfl] at s1 ⊢
      rw [r, s1]

theorem part_block (hs : List Str) (body : Str) (ne : hs ≠ []) (h : ∀ x ∈ hs, PlainLine x) :
    ∃ j, part (crlf ++ crlf) (hs.flatMap (fun h => h ++ crlf) ++ crlf ++ body) = some (j, body) := by
  obtain ⟨j, hj, e⟩ := block_run hs body ne h
  refine ⟨j, ?_⟩
  have s : skip (hs.flatMap (fun h => h ++ crlf) ++ crlf ++ body) = hs.flatMap (fun h => h ++ crlf) ++ crlf ++ body := by
    cases hs with
    | nil => exact absurd rfl ne
    | cons a hs =>
      obtain ⟨_, c, t, rfl, h2⟩ := h a (by simp)
      simp only [List.flatMap_cons, List.cons_append]
      exact skip_cons _ (not_blank h2)
  unfold part
  simp only [s, e, hj, if_false]
  simp [crlf, List.isPrefixOf]

/-- The rules one after the other. -/
theorem respond_steps (r1 r2 r3 r4 t j body : Str) (code : Int) (d : doubleP r1 = some r2) (i : intP r2 = some (code, r3))
    (q : part ['\r', '\n'] r3 = some (t, r4)) (b : part ['\r', '\n', '\r', '\n'] r4 = some (j, body)) :
    respond ('H' :: 'T' :: 'T' :: 'P' :: '/' :: r1) = ⟨"HTTP".toList, some code, t, j, skip body⟩ := by
  have m : many (at_ ['/']) ('H' :: 'T' :: 'T' :: 'P' :: '/' :: r1) = (['H', 'T', 'T', 'P'], '/' :: r1) := by
    simp [many, at_, space]
  have l : lit ['/'] ('/' :: r1) = some r1 := by
    rw [lit, skip_cons r1 (show space '/' = false by decide)]
    simp [List.isPrefixOf]
  have n : ¬ (['H', 'T', 'T', 'P'] : Str) = [] := by decide
  have e : "HTTP".toList = ['H', 'T', 'T', 'P'] := by decide
  rw [e]
  unfold respond
  simp only [m, l, d, i, q, b, n, if_false]

theorem text_gen (a b c d e g f : Str) (h : a = ['H', 'T', 'T', 'P', '/']) : a ++ b ++ '.' :: c ++ ' ' :: d ++ ' ' :: e
    ++ crlf ++ g ++ crlf ++ f
    = 'H' :: 'T' :: 'T' :: 'P' :: '/' :: (b ++ '.' :: c ++ ' ' :: (d ++ ' ' :: (e ++ crlf ++ (g ++ crlf ++ f)))) := by
  subst h
  simp only [List.append_assoc, List.cons_append, List.nil_append]

theorem text_split (p : Page) : p.text = 'H' :: 'T' :: 'T' :: 'P' :: '/' :: (p.major ++ '.' :: p.minor ++ ' ' ::
    ([digit (p.code / 100), digit (p.code / 10), digit p.code] ++ ' ' :: (p.reason ++ crlf ++
      (p.headers.flatMap (fun h => h ++ crlf) ++ crlf ++ p.body)))) := by
  delta Page.text
  exact text_gen _ _ _ _ _ _ _ (by decide)

/-- What the grammar makes of a complete response. -/
theorem respond_text (p : Page) (h : p.Ok) :
    ∃ j, respond p.text = ⟨"HTTP".toList, some (p.code : Int), p.reason, j, skip p.body⟩ := by
  obtain ⟨j, hj⟩ := part_block p.headers p.body h.some h.headers
  refine ⟨j, ?_⟩
  rw [text_split]
  exact respond_steps _ _ _ _ _ _ _ _
    (doubleP_text p.major p.minor _ h.major.1 (fun c hc => digit_of (h.major.2 c hc)) (fun c hc => digit_of (h.minor.2 c hc)))
    (intP_text p.code _ h.code) (part_line p.reason _ h.reason) hj

/-! ## Reading -/

theorem readLoop_eof (n : Nat) (hn : 0 < n) : ∀ (f : Nat) (data buf : Str) (size : Nat), data.length < f → buf.length = size + n →
    readLoop n .eof f data buf size = .done (buf.take size ++ data) := by
  intro f
  induction f with
  | zero => intro data buf size h; omega
  | succ f ih =>
    intro data buf size h hb
    rw [readLoop, if_neg (by omega)]
    by_cases hd : data.length < n
    · rw [if_pos hd]
      have hk : min n data.length = data.length := by omega
      simp only [hk, List.take_length]
      congr 1
      have : (buf.take size ++ data).length = size + data.length := by simp; omega
      rw [List.take_append_of_le_length (by omega), List.take_of_length_le (by omega)]
    · rw [if_neg hd]
      have hk : min n data.length = n := by omega
      simp only [hk]
      have hlen : (buf.take size ++ data.take n ++ buf.drop (size + n)).length = size + n := by simp; omega
      rw [ih _ _ _ (by simp; omega) (by simp; omega)]
      congr 1
      have : buf.drop (size + n) = [] := List.drop_of_length_le (by omega)
      rw [List.take_append_of_le_length (by omega), List.take_of_length_le (by omega), this, List.append_nil, List.append_assoc,
        List.take_append_drop]

theorem readLoop_error (n : Nat) (hn : 0 < n) : ∀ (f : Nat) (data buf : Str) (size : Nat), data.length < f → buf.length = size + n →
    readLoop n .error f data buf size = .failed := by
  intro f
  induction f with
  | zero => intro data buf size h; omega
  | succ f ih =>
    intro data buf size h hb
    rw [readLoop, if_neg (by omega)]
    by_cases hd : data.length < n
    · rw [if_pos hd]
    · rw [if_neg hd]
      exact ih _ _ _ (by simp; omega) (by simp; omega)

/-- **C72, reading.** For every stream, however long, what is parsed is the stream up to its end, nothing is written outside
the buffer, and a stream that ends with an error is not parsed at all. -/
theorem C72_read (data : Str) : readAll bufferSize .eof data = .done data ∧ readAll bufferSize .error data = .failed := by
  refine ⟨?_, ?_⟩
  · rw [readAll, readLoop_eof bufferSize (by decide) _ _ _ _ (by omega) (by rw [List.length_replicate]; omega)]
    rfl
  · rw [readAll, readLoop_error bufferSize (by decide) _ _ _ _ (by omega) (by rw [List.length_replicate]; omega)]

example : readAll 3 .eof "abcdefg".toList = .done "abcdefg".toList := by decide
example : readAll 3 .error "abcdefg".toList = .failed := by decide

/-! ## Web pages -/

theorem many_word (stop : Str → Bool) (a r : Str) (ha : ∀ c ∈ a, ¬ blank c) (hs : ∀ b c t, a = b ++ c :: t → stop (c :: t ++ r) = false) :
    many stop (a ++ r) = (a ++ (many stop r).1, (many stop r).2) := by
  induction a with
  | nil => rfl
  | cons c a ih =>
    have hc := not_blank (ha c (by simp))
    have h0 := hs [] c a rfl
    have ih := ih (fun x hx => ha x (by simp [hx])) (fun b d t e => hs (c :: b) d t (by rw [e]; rfl))
    rw [List.cons_append, many, hc]
    rw [List.cons_append] at h0
    simp [h0, ih]

/-- The URL of `path` on `host` is split into these two. -/
theorem splitUrl_text (host path : Str) (hh : host ≠ []) (bh : ∀ c ∈ host, ¬ blank c ∧ c ≠ '/') (bp : ∀ c ∈ path, ¬ blank c) :
    splitUrl (host ++ '/' :: path) = (host, path) := by
  have hs : ∀ b c t, host = b ++ c :: t → at_ ['/'] (c :: t ++ '/' :: path) = false := by
    intro b c t e
    have := (bh c (by rw [e]; simp)).2
    simp [at_, this]
  have m : many (at_ ['/']) (host ++ '/' :: path) = (host, '/' :: path) := by
    rw [many_word _ _ _ (fun c hc => (bh c hc).1) hs]
    simp [many, at_, show space '/' = false by decide]
  have l : lit ['/'] ('/' :: path) = some path := by
    rw [lit, skip_cons path (show space '/' = false by decide)]
    simp [List.isPrefixOf]
  have p : many (fun _ => false) path = (path, []) := by
    have := many_word (fun _ => false) path [] bp (fun _ _ _ _ => rfl)
    simpa [many] using this
  simp [splitUrl, m, hh, l, p]

theorem request_text (host path : Str) : request (host, path) = getText host path := by
  have h1 : " HTTP/1.0\r\nHost: ".toList = " HTTP/1.0\r\n".toList ++ "Host: ".toList := by decide
  have h2 : "\r\nAccept: */*\r\nConnection: close\r\n\r\n".toList
      = "\r\n".toList ++ ("Accept: */*\r\n".toList ++ "Connection: close\r\n\r\n".toList) := by decide
  delta request getText
  rw [h1, h2]
  simp only [List.append_assoc]

/-- **C72, web pages.** If the server of `host`, asked for `path`, sends any complete response and closes the connection, then
the callback gets the body, exactly and once, if the status code is 200 — provided the body does not begin with white space
(see `C72_trim` for what happens otherwise) — and an exception of uHAL's is thrown for every other status code. -/
theorem C72_http_partial (w : World) (host path parent : Str) (p : Page) (hh : host ≠ [])
    (bh : ∀ c ∈ host, ¬ blank c ∧ c ≠ '/') (bp : ∀ c ∈ path, ¬ blank c)
    (hr : w.resolves host = true) (hc : w.connects host = true)
    (ha : w.answer host (getText host path) = some (p.text, .eof)) (ok : p.Ok) (hb : ∀ c t, p.body = c :: t → ¬ blank c) :
    openFile w "http".toList (host ++ '/' :: path) parent =
      if p.code = 200 then ([("http".toList, host ++ '/' :: path, p.body)], .ok) else ([], .cannotOpen) := by
  obtain ⟨j, hj⟩ := respond_text p ok
  have s : skip p.body = p.body := by
    cases hbody : p.body with
    | nil => rfl
    | cons c t => exact skip_cons t (not_blank (hb c t hbody))
  have g : httpGet w (host ++ '/' :: path) = if p.code = 200 then .page p.body else .failed := by
    unfold httpGet
    simp only [splitUrl_text host path hh bh bp, hr, hc, request_text, ha, (C72_read p.text).1, hj, judge, s]
    simp
    by_cases h : p.code = 200
    · simp [h]
    · have : ¬ ((p.code : Int) = 200) := by omega
      simp [h, this]
  unfold openFile openHttp
  rw [g]
  by_cases h : p.code = 200 <;> simp [h]

/-- White space at the beginning of the body is dropped; nothing else is. -/
theorem C72_trim (p : Page) (ok : p.Ok) (h200 : p.code = 200) :
    ∃ b t, p.body = b ++ t ∧ (∀ c ∈ b, blank c) ∧ (∀ c u, t = c :: u → ¬ blank c) ∧ judge (respond p.text) = .page t := by
  obtain ⟨j, hj⟩ := respond_text p ok
  refine ⟨p.body.takeWhile space, skip p.body, (List.takeWhile_append_dropWhile ..).symm, ?_, ?_, ?_⟩
  · intro c hc
    have : ∀ l : Str, ∀ c ∈ l.takeWhile space, space c = true := by
      intro l
      induction l with
      | nil => intro c hc; simp at hc
      | cons a l ih =>
        intro c hc
        cases hs : space a <;> simp [List.takeWhile, hs] at hc
        rcases hc with rfl | hc
        · exact hs
        · exact ih c hc
    exact (blank_iff c).1 (this _ c hc)
  · intro c u e
    have : ∀ l : Str, ∀ c u, skip l = c :: u → space c = false := by
      intro l
      induction l with
      | nil => intro c u h; simp [skip] at h
      | cons a l ih =>
        intro c u h
        cases hs : space a
        · rw [skip_cons _ hs] at h
          exact (List.cons.inj h).1 ▸ hs
        · exact ih c u (by simpa [skip, List.dropWhile, hs] using h)
    intro hb
    have h1 := (blank_iff c).2 hb
    rw [this _ c u e] at h1
    exact Bool.noConfusion h1
  · rw [hj]
    simp [judge, h200]

/-! ## A concrete page -/

/-- A page of an ordinary server. -/
def demoPage (code : Nat) : Page where
  major := "1".toList
  minor := "1".toList
  code := code
  reason := "Some Words".toList
  headers := ["Server: x".toList, "Content-Length: 22".toList]
  body := "<node id=\"A\">\r\n\r\n</node>".toList

/-- The world with one web server, and two files on the disk. -/
def demoWorld (reply : Str) (e : NetEnd) : World where
  words := fun s => if s = "*.xml".toList then some ["a.xml".toList, "dir.xml".toList, "b.xml".toList]
    else if s = "no*.xml".toList then some [s] else if s = "(".toList then none else some [s]
  absolute := fun p q => q ++ '/' :: p
  regular := fun p => p = "/d/a.xml".toList ∨ p = "/d/b.xml".toList ∨ p = "/d/c.xml".toList ∨ p = "/d/empty.xml".toList
  readable := fun p => p ≠ "/d/c.xml".toList
  bytes := fun p => if p = "/d/a.xml".toList then "<a/>".toList else if p = "/d/b.xml".toList then "<b/>\n".toList else []
  resolves := fun h => h = "host".toList
  connects := fun _ => true
  answer := fun _ q => if q = getText "host".toList "a/b.xml".toList then some (reply, e) else none

theorem demo_answer (r : Str) (e : NetEnd) :
    (demoWorld r e).answer "host".toList (getText "host".toList "a/b.xml".toList) = some (r, e) := by
  delta demoWorld
  dsimp only
  rw [if_pos rfl]

theorem demoPage_ok : (demoPage 200).Ok where
  major := by decide
  minor := by decide
  code := by decide
  reason := by exact ⟨by decide, 'S', "ome Words".toList, by decide, by unfold blank; decide⟩
  some := by decide
  headers := by
    intro x hx
    have : x = "Server: x".toList ∨ x = "Content-Length: 22".toList := by simpa [demoPage] using hx
    rcases this with rfl | rfl
    · exact ⟨by decide, 'S', "erver: x".toList, by decide, by unfold blank; decide⟩
    · exact ⟨by decide, 'C', "ontent-Length: 22".toList, by decide, by unfold blank; decide⟩

/-- `C72_http_partial` applies to it: the empty line in the body is part of the body. -/
example : openFile (demoWorld (demoPage 200).text .eof) "http".toList "host/a/b.xml".toList [] =
    ([("http".toList, "host/a/b.xml".toList, "<node id=\"A\">\r\n\r\n</node>".toList)], .ok) := by
  have h : ∀ c ∈ "host".toList, ¬ blank c ∧ c ≠ '/' := by unfold blank; decide
  have k : ∀ c ∈ "a/b.xml".toList, ¬ blank c := by unfold blank; decide
  have e : "host/a/b.xml".toList = "host".toList ++ '/' :: "a/b.xml".toList := by decide
  have g := C72_http_partial (demoWorld (demoPage 200).text .eof) "host".toList "a/b.xml".toList [] (demoPage 200) (by decide) h k
    (by decide +kernel) rfl (demo_answer _ _) demoPage_ok (by
      intro c t hc
      have : c = '<' := by
        have hb : (demoPage 200).body.head? = some '<' := by decide
        rw [hc] at hb
        simpa using hb
      subst this
      unfold blank
      decide)
  rw [e, g, if_pos (show (demoPage 200).code = 200 from rfl)]
  rfl

/-! ## Nothing else is taken for a page -/

theorem many_split (stop : Str → Bool) : ∀ s : Str, ∃ a, s = a ++ (many stop s).2 ∧ a.filter (fun c => !space c) = (many stop s).1 := by
  intro s
  induction s with
  | nil => exact ⟨[], rfl, rfl⟩
  | cons c r ih =>
    obtain ⟨a, h1, h2⟩ := ih
    by_cases hc : space c = true
    · refine ⟨c :: a, ?_, ?_⟩
      · rw [many, if_pos hc, List.cons_append, ← h1]
      · rw [many, if_pos hc, ← h2]
        simp [hc]
    · by_cases hs : stop (c :: r) = true
      · refine ⟨[], ?_, ?_⟩
        · rw [many, if_neg hc, if_pos hs]; rfl
        · rw [many, if_neg hc, if_pos hs]; rfl
      · refine ⟨c :: a, ?_, ?_⟩
        · rw [many, if_neg hc, if_neg hs, List.cons_append]
          exact congrArg _ h1
        · rw [many, if_neg hc, if_neg hs, ← h2]
          simp [hc]

theorem skip_split (s : Str) : ∃ a, s = a ++ skip s ∧ a.filter (fun c => !space c) = [] := by
  induction s with
  | nil => exact ⟨[], rfl, rfl⟩
  | cons c r ih =>
    cases hc : space c
    · exact ⟨[], by rw [skip_cons r hc]; rfl, rfl⟩
    · obtain ⟨a, h1, h2⟩ := ih
      have e : skip (c :: r) = skip r := by simp [skip, List.dropWhile, hc]
      refine ⟨c :: a, ?_, by simp [hc, h2]⟩
      rw [e, List.cons_append, ← h1]

theorem skip_suffix (s : Str) : skip s <:+ s := List.dropWhile_suffix _

theorem sign_suffix (s : Str) : (sign s).2 <:+ s := by
  unfold sign
  split
  · exact List.suffix_cons _ _
  · exact List.suffix_cons _ _
  · exact List.suffix_rfl

theorem expo_suffix (s : Str) : expo s <:+ s := by
  cases s with
  | nil => exact List.suffix_rfl
  | cons c r =>
    rw [expo]
    split
    · exact ((List.dropWhile_suffix _).trans (sign_suffix r)).trans (List.suffix_cons _ _)
    · exact List.suffix_rfl

theorem doubleP_suffix {s r : Str} (h : doubleP s = some r) : r <:+ s := by
  have base : ((sign (skip s)).2.dropWhile isDigit) <:+ s :=
    ((List.dropWhile_suffix _).trans (sign_suffix _)).trans (skip_suffix s)
  unfold doubleP at h
  simp only at h
  cases hd : (sign (skip s)).2.dropWhile isDigit with
  | nil =>
    rw [hd] at h
    simp only at h
    split at h
    · exact absurd h (by simp)
    · rw [← Option.some.inj h]; exact List.nil_suffix
  | cons c q =>
    rw [hd] at h base
    simp only at h
    split at h
    · split at h
      · exact absurd h (by simp)
      · rw [← Option.some.inj h]
        exact (((expo_suffix _).trans (List.dropWhile_suffix _)).trans (List.suffix_cons _ _)).trans base
    · split at h
      · exact absurd h (by simp)
      · rw [← Option.some.inj h]
        exact (expo_suffix _).trans base

theorem intP_split {s r : Str} {n : Int} (h : intP s = some (n, r)) (hn : 0 < n) :
    ∃ a ds, s = a ++ ds ++ r ∧ (∀ c ∈ ds, isDigit c = true) ∧ (decVal ds : Int) = n := by
  obtain ⟨a, ha⟩ := (sign_suffix (skip s)).trans (skip_suffix s)
  have hs : s = a ++ (sign (skip s)).2.takeWhile isDigit ++ (sign (skip s)).2.dropWhile isDigit := by
    rw [List.append_assoc, List.takeWhile_append_dropWhile, ha]
  have all : ∀ l : Str, ∀ c ∈ l.takeWhile isDigit, isDigit c = true := by
    intro l
    induction l with
    | nil => intro c hc; simp at hc
    | cons x l ih =>
      intro c hc
      cases hx : isDigit x <;> simp [List.takeWhile, hx] at hc
      rcases hc with rfl | hc
      · exact hx
      · exact ih c hc
  unfold intP at h
  simp only at h
  split at h
  · exact absurd h (by simp)
  · split at h
    · split at h
      · have := (Prod.mk.inj (Option.some.inj h)).1
        omega
      · exact absurd h (by simp)
    · split at h
      · obtain ⟨e1, e2⟩ := Prod.mk.inj (Option.some.inj h)
        exact ⟨a, _, by rw [← e2]; exact hs, all _, e1⟩
      · exact absurd h (by simp)

theorem upTo_suffix (t : Str) : ∀ s : Str, (upTo t s).2 <:+ s := by
  intro s
  induction s with
  | nil => exact List.suffix_rfl
  | cons c r ih =>
    rw [upTo]
    split
    · exact List.suffix_rfl
    · exact ih.trans (List.suffix_cons _ _)

theorem part_suffix {t s u r : Str} (h : part t s = some (u, r)) : r <:+ s := by
  have base := (upTo_suffix t (skip s)).trans (skip_suffix s)
  unfold part at h
  simp only at h
  split at h
  · exact absurd h (by simp)
  · rw [← (Prod.mk.inj (Option.some.inj h)).2]
    split
    · exact (List.drop_suffix _ _).trans base
    · exact base

theorem lit_slash {s r : Str} (h : lit ['/'] s = some r) : ∃ a, s = a ++ '/' :: r ∧ a.filter (fun c => !space c) = [] := by
  unfold lit at h
  split at h
  · next hp =>
    obtain ⟨a, h1, h2⟩ := skip_split s
    cases hs : skip s with
    | nil => rw [hs] at hp; exact absurd hp (by simp [List.isPrefixOf])
    | cons c q =>
      rw [hs] at hp h h1
      have hc : '/' = c := by simpa [List.isPrefixOf] using hp
      subst hc
      refine ⟨a, ?_, h2⟩
      have : q = r := by simpa using h
      rw [← this]
      exact h1
  · exact absurd h (by simp)

/-- **C72, nothing else.** Whatever a server sends: if anything at all is handed to the callback, it is handed over once, the
stream was complete, what was sent begins (white space apart) with `HTTP/`, has the number 200 in it, and the content is the
end of what was sent, from some place after that number on. -/
theorem C72_sound (w : World) (url parent : Str) (calls : List Call) (st : Stop)
    (h : openFile w "http".toList url parent = (calls, st)) (hc : calls ≠ []) :
    ∃ host path reply pre version gap code rest content,
      calls = [("http".toList, url, content)] ∧ st = .ok ∧ w.answer host (getText host path) = some (reply, .eof) ∧
      reply = pre ++ '/' :: version ++ gap ++ code ++ rest ∧ pre.filter (fun c => !space c) = "HTTP".toList ∧
      (∀ c ∈ code, isDigit c = true) ∧ decVal code = 200 ∧ content <:+ rest := by
  have hf : ¬ ("http".toList = "file".toList) := by decide
  unfold openFile at h
  rw [if_neg hf, if_pos rfl] at h
  unfold openHttp at h
  cases hg : httpGet w url with
  | failed => rw [hg] at h; exact absurd (Prod.mk.inj h).1.symm hc
  | foreign => rw [hg] at h; exact absurd (Prod.mk.inj h).1.symm hc
  | ub => rw [hg] at h; exact absurd (Prod.mk.inj h).1.symm hc
  | page c =>
    rw [hg] at h
    obtain ⟨h1, h2⟩ := Prod.mk.inj h
    unfold httpGet at hg
    simp only at hg
    split at hg
    · exact absurd hg (by simp)
    split at hg
    · exact absurd hg (by simp)
    cases ha : w.answer (splitUrl url).1 (request (splitUrl url)) with
    | none => rw [ha] at hg; exact absurd hg (by simp)
    | some de =>
      obtain ⟨data, e⟩ := de
      rw [ha] at hg
      simp only at hg
      cases e with
      | error => rw [(C72_read data).2] at hg; exact absurd hg (by simp)
      | eof =>
        rw [(C72_read data).1] at hg
        simp only at hg
        unfold judge at hg
        split at hg
        · exact absurd hg (by simp)
        · next hm =>
          have hm : (respond data).method = "HTTP".toList := by
            by_cases q : (respond data).method = "HTTP".toList
            · exact q
            · exact absurd q hm
          cases hst : (respond data).status with
          | none => rw [hst] at hg; exact absurd hg (by simp)
          | some n =>
            rw [hst] at hg
            simp only at hg
            split at hg
            · next hn =>
              have hcont : (respond data).content = c := by simpa using hg
              subst hn
              obtain ⟨a, ma, mf⟩ := many_split (at_ ['/']) data
              have key : ∃ pre version gap code rest, data = pre ++ '/' :: version ++ gap ++ code ++ rest ∧
                  pre.filter (fun c => !space c) = (respond data).method ∧
                  (∀ c ∈ code, isDigit c = true) ∧ decVal code = 200 ∧ (respond data).content <:+ rest := by
                generalize hr : respond data = R at hm hst hcont ⊢
                unfold respond at hr
                simp only at hr
                split at hr
                · rw [← hr] at hst; exact absurd hst (by simp)
                · cases hl : lit ['/'] (many (at_ ['/']) data).2 with
                  | none => simp only [hl] at hr; rw [← hr] at hst; exact absurd hst (by simp)
                  | some r1 =>
                    simp only [hl] at hr
                    cases hd : doubleP r1 with
                    | none => simp only [hd] at hr; rw [← hr] at hst; exact absurd hst (by simp)
                    | some r2 =>
                      simp only [hd] at hr
                      cases hi : intP r2 with
                      | none => simp only [hi] at hr; rw [← hr] at hst; exact absurd hst (by simp)
                      | some nr =>
                        obtain ⟨n, r3⟩ := nr
                        simp only [hi] at hr
                        obtain ⟨b, lb, lf⟩ := lit_slash hl
                        obtain ⟨v, hv⟩ := doubleP_suffix hd
                        have fin : n = 200 ∧ R.method = (many (at_ ['/']) data).1 ∧ R.content <:+ r3 := by
                          cases hp : part ['\r', '\n'] r3 with
                          | none =>
                            simp only [hp] at hr
                            subst hr
                            exact ⟨by simpa using hst, rfl, List.nil_suffix⟩
                          | some tr =>
                            obtain ⟨t, r4⟩ := tr
                            simp only [hp] at hr
                            cases hq : part ['\r', '\n', '\r', '\n'] r4 with
                            | none =>
                              simp only [hq] at hr
                              subst hr
                              exact ⟨by simpa using hst, rfl, List.nil_suffix⟩
                            | some hr5 =>
                              obtain ⟨hh, r5⟩ := hr5
                              simp only [hq] at hr
                              subst hr
                              exact ⟨by simpa using hst, rfl,
                                (skip_suffix r5).trans ((part_suffix hq).trans (part_suffix hp))⟩
                        obtain ⟨f1, f2, f3⟩ := fin
                        subst f1
                        obtain ⟨g, ds, i1, i2, i3⟩ := intP_split hi (by decide)
                        refine ⟨a ++ b, v, g, ds, r3, ?_, ?_, i2, by omega, f3⟩
                        · rw [ma, lb, ← hv, i1]
                          simp only [List.append_assoc, List.cons_append]
                        · rw [List.filter_append, lf, List.append_nil, mf, f2]
              obtain ⟨pre, version, gap, code, rest, k1, k2, k3, k4, k5⟩ := key
              refine ⟨(splitUrl url).1, (splitUrl url).2, data, pre, version, gap, code, rest, c, ?_, h2.symm, ?_, k1, ?_, k3, k4, ?_⟩
              · exact h1.symm
              · rw [← request_text]; exact ha
              · rw [k2, hm]
              · rw [← hcont]; exact k5
            · exact absurd hg (by simp)

/-! ## Local files, other protocols, lists -/

/-- **C72, local files.** If the shell can expand the expression, and the regular files among the words are readable, not empty,
and there is at least one, then the callback is called for each of them, in order, with exactly its contents. -/
theorem C72_local_partial (w : World) (expr parent : Str) (ws fs : List Str) (h : w.words expr = some ws)
    (hf : fs = (ws.map (fun p => w.absolute p parent)).filter w.regular) (ne : fs ≠ [])
    (ok : ∀ p ∈ fs, w.readable p = true ∧ w.bytes p ≠ []) :
    openFile w "file".toList expr parent = (fs.map (fun p => ("file".toList, p, w.bytes p)), .ok) := by
  have key : ∀ l : List Str, (∀ p ∈ l, w.readable p = true ∧ w.bytes p ≠ []) →
      readFiles w l = (l.map (fun p => ("file".toList, p, w.bytes p)), .ok) := by
    intro l
    induction l with
    | nil => intro _; rfl
    | cons p l ih =>
      intro hl
      obtain ⟨h1, h2⟩ := hl p (by simp)
      rw [readFiles, if_neg (by simp [h1]), if_neg h2, ih (fun q hq => hl q (by simp [hq]))]
      rfl
  unfold openFile openLocal
  rw [if_pos rfl, h]
  simp only [← hf, if_neg ne]
  exact key fs ok

/-- Whatever happens, the calls that are made are for regular files that the shell named, in order and without gaps, with exactly
their contents; the first one that cannot be read ends the loop. -/
theorem C72_local_sound (w : World) (expr parent : Str) :
    ∃ ws fs gs, (w.words expr = some ws ∨ w.words expr = none ∧ ws = []) ∧
      (ws.map (fun p => w.absolute p parent)).filter w.regular = fs ++ gs ∧
      (openFile w "file".toList expr parent).1 = fs.map (fun p => ("file".toList, p, w.bytes p)) ∧
      ((openFile w "file".toList expr parent).2 = .ok ↔ gs = [] ∧ fs ≠ []) ∧
      ((openFile w "file".toList expr parent).2 = .notFound ↔ w.words expr = some ws ∧ gs = [] ∧ fs = []) := by
  have key : ∀ l : List Str, ∃ fs gs, l = fs ++ gs ∧ (readFiles w l).1 = fs.map (fun p => ("file".toList, p, w.bytes p)) ∧
      ((readFiles w l).2 = .ok ↔ gs = []) ∧ (readFiles w l).2 ≠ .notFound := by
    intro l
    induction l with
    | nil => exact ⟨[], [], rfl, rfl, by simp [readFiles], by simp [readFiles]⟩
    | cons p l ih =>
      obtain ⟨fs, gs, h1, h2, h3, h4⟩ := ih
      by_cases hr : w.readable p = false
      · exact ⟨[], p :: l, rfl, by simp [readFiles, hr], by simp [readFiles, hr], by simp [readFiles, hr]⟩
      · by_cases hb : w.bytes p = []
        · exact ⟨[], p :: l, rfl, by simp [readFiles, hr, hb], by simp [readFiles, hr, hb], by simp [readFiles, hr, hb]⟩
        · have e : readFiles w (p :: l) = (("file".toList, p, w.bytes p) :: (readFiles w l).1, (readFiles w l).2) := by
            rw [readFiles, if_neg hr, if_neg hb]
          refine ⟨p :: fs, gs, by rw [h1]; rfl, ?_, ?_, ?_⟩
          · rw [e, h2]; rfl
          · rw [e]; exact h3
          · rw [e]; exact h4
  have hopen : openFile w "file".toList expr parent = openLocal w expr parent := by
    unfold openFile; rw [if_pos rfl]
  rw [hopen]
  cases hw : w.words expr with
  | none => exact ⟨[], [], [], Or.inr ⟨rfl, rfl⟩, rfl, by simp [openLocal, hw], by simp [openLocal, hw], by simp [openLocal, hw]⟩
  | some ws =>
    by_cases hn : (ws.map (fun p => w.absolute p parent)).filter w.regular = []
    · have e : openLocal w expr parent = ([], .notFound) := by
        unfold openLocal; rw [hw]; simp only [hn, if_true]
      exact ⟨ws, [], [], Or.inl rfl, hn, by rw [e]; rfl, by rw [e]; simp, by rw [e]; simp⟩
    · obtain ⟨fs, gs, h1, h2, h3, h4⟩ := key ((ws.map (fun p => w.absolute p parent)).filter w.regular)
      have e : openLocal w expr parent = readFiles w ((ws.map (fun p => w.absolute p parent)).filter w.regular) := by
        unfold openLocal; rw [hw]; simp only [hn, if_false]
      refine ⟨ws, fs, gs, Or.inl rfl, h1, by rw [e]; exact h2, ?_, ?_⟩
      · rw [e, h3]
        refine ⟨fun hg => ⟨hg, fun hf => hn (by rw [h1, hg, hf]; rfl)⟩, fun hg => hg.1⟩
      · rw [e]
        refine ⟨fun hg => absurd hg h4, fun hg => absurd (by rw [h1, hg.2.1, hg.2.2]; rfl) hn⟩

example : openFile (demoWorld [] .eof) "file".toList "*.xml".toList "/d".toList =
    ([("file".toList, "/d/a.xml".toList, "<a/>".toList), ("file".toList, "/d/b.xml".toList, "<b/>\n".toList)], .ok) := by
  decide +kernel
example : openFile (demoWorld [] .eof) "file".toList "no*.xml".toList "/d".toList = ([], .notFound) := by decide +kernel
example : openFile (demoWorld [] .eof) "file".toList "c.xml".toList "/d".toList = ([], .cannotOpen) := by decide +kernel

/-- Every other protocol is refused, before anything is opened. -/
theorem C72_other (w : World) (proto expr parent : Str) (h1 : proto ≠ "file".toList) (h2 : proto ≠ "http".toList) :
    openFile w proto expr parent = ([], .badProtocol) := by
  unfold openFile
  rw [if_neg h1, if_neg h2]

/-- A list of files is opened in order, up to the first that cannot be. -/
theorem C72_list (w : World) (parent : Str) (us : List (Str × Str)) :
    ((openAll w parent us).2 = .ok ↔ ∀ u ∈ us, (openFile w u.1 u.2 parent).2 = .ok) ∧
    ∃ vs rest, us = vs ++ rest ∧ (openAll w parent us).1 = vs.flatMap (fun u => (openFile w u.1 u.2 parent).1) ∧
      ((openAll w parent us).2 = .ok → rest = []) ∧
      ((openAll w parent us).2 ≠ .ok → ∃ v vs', vs = vs' ++ [v] ∧ (openFile w v.1 v.2 parent).2 = (openAll w parent us).2 ∧
        ∀ u ∈ vs', (openFile w u.1 u.2 parent).2 = .ok) := by
  induction us with
  | nil => exact ⟨by simp [openAll], [], [], rfl, rfl, fun _ => rfl, fun h => absurd rfl h⟩
  | cons u us ih =>
    obtain ⟨p, e⟩ := u
    obtain ⟨h1, vs, rest, h2, h3, h4, h5⟩ := ih
    by_cases hk : (openFile w p e parent).2 = .ok
    · have q : openAll w parent ((p, e) :: us) = ((openFile w p e parent).1 ++ (openAll w parent us).1, (openAll w parent us).2) := by
        rw [openAll]; simp only [hk, if_true]
      rw [q]
      refine ⟨?_, (p, e) :: vs, rest, by rw [h2]; rfl, by simp [h3], h4, ?_⟩
      · simp [h1, hk]
      · intro hn
        obtain ⟨v, vs', k1, k2, k3⟩ := h5 hn
        refine ⟨v, (p, e) :: vs', by rw [k1]; rfl, k2, ?_⟩
        intro u hu
        rcases List.mem_cons.1 hu with rfl | hu
        · exact hk
        · exact k3 u hu
    · have q : openAll w parent ((p, e) :: us) = openFile w p e parent := by
        rw [openAll]; simp only [hk, if_false]
      rw [q]
      refine ⟨⟨fun h => absurd h hk, fun h => absurd (h (p, e) (by simp)) hk⟩, [(p, e)], us, rfl, by simp, fun h => absurd h hk, ?_⟩
      intro _
      exact ⟨(p, e), [], rfl, rfl, fun u hu => absurd hu (by simp)⟩

/-! ## Where the code differs -/

/-- A page with code 200, no reason phrase (which RFC 2616 allows) and one header: the header is taken for the reason phrase, and
the body for the headers; the callback gets a file with nothing in it. -/
theorem C72_violated_reason :
    openFile (demoWorld "HTTP/1.1 200 \r\nServer: x\r\n\r\n<node/>".toList .eof) "http".toList "host/a/b.xml".toList [] =
      ([("http".toList, "host/a/b.xml".toList, [])], .ok) := by decide +kernel

/-- The same for a page without headers. -/
theorem C72_violated_headers :
    openFile (demoWorld "HTTP/1.0 200 OK\r\n\r\n<node/>".toList .eof) "http".toList "host/a/b.xml".toList [] =
      ([("http".toList, "host/a/b.xml".toList, [])], .ok) := by decide +kernel

/-- A page that is cut short is accepted, although its length was announced. -/
theorem C72_violated_short :
    openFile (demoWorld "HTTP/1.0 200 OK\r\nContent-Length: 7\r\n\r\n<no".toList .eof) "http".toList "host/a/b.xml".toList [] =
      ([("http".toList, "host/a/b.xml".toList, "<no".toList)], .ok) ∧
    openFile (demoWorld "HTTP/1.0 200".toList .eof) "http".toList "host/a/b.xml".toList [] =
      ([("http".toList, "host/a/b.xml".toList, [])], .ok) := by
  refine ⟨?_, ?_⟩ <;> decide +kernel

/-- White space at the beginning of a page is lost. -/
theorem C72_violated_blank :
    openFile (demoWorld "HTTP/1.0 200 OK\r\nServer: x\r\n\r\n\n <node/>".toList .eof) "http".toList "host/a/b.xml".toList [] =
      ([("http".toList, "host/a/b.xml".toList, "<node/>".toList)], .ok) := by decide +kernel

/-- If a server closes the connection after `HTTP`, the status that is compared with 200 has never been set. -/
theorem C72_violated_status :
    openFile (demoWorld "HTTP".toList .eof) "http".toList "host/a/b.xml".toList [] = ([], .ub) ∧
    openFile (demoWorld "HTTP/1.0 OK\r\n".toList .eof) "http".toList "host/a/b.xml".toList [] = ([], .ub) := by
  refine ⟨?_, ?_⟩ <;> decide +kernel

/-- An unknown host, and any host with a port, end in an exception that is not one of uHAL's. -/
theorem C72_violated_host (r : Str) (e : NetEnd) :
    openFile (demoWorld r e) "http".toList "host:8080/a/b.xml".toList [] = ([], .foreign) := by
  have h : (splitUrl "host:8080/a/b.xml".toList).1 = "host:8080".toList := by decide +kernel
  have k : (demoWorld r e).resolves "host:8080".toList = false := by
    have : decide ("host:8080".toList = "host".toList) = false := by decide
    exact this
  have f : ¬ ("http".toList = "file".toList) := by decide
  unfold openFile openHttp httpGet
  rw [if_neg f, if_pos rfl]
  simp only [h, k, if_true]

/-- An expression that the shell rejects, and an empty file, are undefined behaviour. -/
theorem C72_violated_local :
    openFile (demoWorld [] .eof) "file".toList "(".toList "/d".toList = ([], .ub) ∧
    openFile (demoWorld [] .eof) "file".toList "empty.xml".toList "/d".toList = ([], .ub) := by
  refine ⟨?_, ?_⟩ <;> decide +kernel

end Verif.Files
