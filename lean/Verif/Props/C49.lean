import Verif.Props.C39
/-!
# C49: lists of files

`ParseSemicolonDelimitedUriList` on a list as a user writes it, `protocol://name;protocol://name;…`.
-/

set_option autoImplicit false

namespace Verif.Uri

/-- An entry made of allowed characters: no white space, protocol not empty and without `:`, not beginning with `;`, name without
`;`. -/
structure Plain (a : Str × Str) : Prop where
  sp1 : NoSp a.1
  sp2 : NoSp a.2
  protocol : a.1 ≠ [] ∧ ':' ∉ a.1 ∧ a.1.head? ≠ some ';'
  name : ';' ∉ a.2

theorem many_colon {a b : Str} (ha : NoSp a) (hc : ':' ∉ a) :
    many (fun t => "://".toList.isPrefixOf t) (a ++ ("://".toList ++ b)) = (a, "://".toList ++ b) := by
  induction a with
  | nil => simp [many, List.isPrefixOf, show space ':' = false by decide]
  | cons c a ih =>
    have := ih (fun x hx => ha x (List.mem_cons_of_mem _ hx)) (fun h => hc (List.mem_cons_of_mem _ h))
    have h1 := ha c (by simp)
    have h2 : ':' ≠ c := fun e => hc (by rw [e]; simp)
    simp only [List.cons_append, many, h1, Bool.false_eq_true, if_false, this]
    simp [List.isPrefixOf, h2]

theorem printUriList_nosp {as : List (Str × Str)} (h : ∀ a ∈ as, Plain a) : NoSp (printUriList as) := by
  have hc : NoSp "://".toList := by simp [NoSp, space]
  induction as with
  | nil => intro c hc; simp [printUriList] at hc
  | cons a as ih =>
    have ha := h a (by simp)
    cases as with
    | nil => exact NoSp.append (NoSp.append ha.sp1 hc) ha.sp2
    | cons b bs =>
      have := ih (fun x hx => h x (List.mem_cons_of_mem _ hx))
      exact NoSp.append (NoSp.append (NoSp.append ha.sp1 hc) ha.sp2) (NoSp.cons (by decide) this)

theorem drop_start {s : Str} (hs : NoSp s) (h : s.head? ≠ some ';') : s.dropWhile (fun c => space c || c == ';') = s := by
  cases s with
  | nil => rfl
  | cons c r =>
    have h1 := hs c (by simp)
    have h2 : c ≠ ';' := by simpa using h
    simp [h1, h2]

theorem printUriList_head {as : List (Str × Str)} (h : ∀ a ∈ as, Plain a) : (printUriList as).head? ≠ some ';' := by
  cases as with
  | nil => simp [printUriList]
  | cons a as =>
    have ha := h a (by simp)
    obtain ⟨c, r, hr⟩ := List.exists_cons_of_ne_nil ha.protocol.1
    have := ha.protocol.2.2
    rw [hr] at this
    cases as <;> simp [printUriList, hr] <;> simpa using this

theorem uriList_print {as : List (Str × Str)} (h : ∀ a ∈ as, Plain a) (n : Nat) (hn : as.length ≤ n) :
    uriList n (printUriList as) = .ok as [] := by
  induction as generalizing n with
  | nil =>
    cases n with
    | zero => rfl
    | succ n => simp [uriList, printUriList, many]
  | cons a as ih =>
    obtain ⟨n, rfl⟩ : ∃ m, n = m + 1 := ⟨n - 1, by simp at hn; omega⟩
    have ha := h a (by simp)
    have hrest : ∀ x ∈ as, Plain x := fun x hx => h x (List.mem_cons_of_mem _ hx)
    have ih' := ih hrest n (by simpa using hn)
    have hcol : NoSp "://".toList := by simp [NoSp, space]
    have hall := printUriList_nosp h
    have hhead := printUriList_head h
    have key : ∀ tail : Str, NoSp tail → (∀ c, tail.head? = some c → c = ';') → printUriList (a :: as) = a.1 ++ ("://".toList ++ (a.2 ++ tail)) →
        tail.dropWhile (fun c => space c || c == ';') = printUriList as → uriList (n + 1) (printUriList (a :: as)) = .ok (a :: as) [] := by
      intro tail ht hth he hd
      have hb : NoSp ("://".toList ++ (a.2 ++ tail)) := NoSp.append hcol (NoSp.append ha.sp2 ht)
      have m1 := many_colon (b := a.2 ++ tail) ha.sp1 ha.protocol.2.1
      have m2 : lit "://".toList ("://".toList ++ (a.2 ++ tail)) = some (a.2 ++ tail) := by
        rw [lit_nosp hb]; simp [List.isPrefixOf]
      have m3 : many (at_ [';']) (a.2 ++ tail) = (a.2, tail) :=
        many_at ha.sp2 (fun c hc => by simp; rintro rfl; exact ha.name hc) ht (fun c hc => by simp [hth c hc])
      simp only [uriList, drop_start hall hhead]
      rw [he]
      simp only [m1, ha.protocol.1, if_false, m2, m3, hd, ih']
    cases as with
    | nil => exact key [] (by intro c hc; simp at hc) (by simp) (by simp [printUriList]) rfl
    | cons b bs =>
      refine key (';' :: printUriList (b :: bs)) (NoSp.cons (by decide) (printUriList_nosp hrest)) (by simp)
        (by simp [printUriList]) ?_
      have : (';' :: printUriList (b :: bs)).dropWhile (fun c => space c || c == ';') =
          (printUriList (b :: bs)).dropWhile (fun c => space c || c == ';') := by simp
      rw [this]
      exact drop_start (printUriList_nosp hrest) (printUriList_head hrest)

theorem printUriList_length {as : List (Str × Str)} : as.length ≤ (printUriList as).length := by
  induction as with
  | nil => simp
  | cons a as ih =>
    cases as with
    | nil => simp [printUriList]; omega
    | cons b bs => simp [printUriList] at ih ⊢; omega

/-- The passes of `uriList` do not limit it. -/
theorem uriList_fuel (n m : Nat) (s : Str) (hn : s.length ≤ n) (hm : s.length ≤ m) : uriList n s = uriList m s := by
  induction n generalizing m s with
  | zero =>
    have : s = [] := List.length_eq_zero_iff.mp (by omega)
    subst this
    cases m <;> simp [uriList, many]
  | succ n ih =>
    cases m with
    | zero =>
      have : s = [] := List.length_eq_zero_iff.mp (by omega)
      subst this
      simp [uriList, many]
    | succ m =>
      simp only [uriList]
      split
      · rfl
      · rename_i hne
        have hpos := List.length_pos_iff.mpr hne
        split
        · rfl
        · rename_i r hr
          have h0 : (s.dropWhile fun c => space c || c == ';').length ≤ s.length := (List.dropWhile_sublist _).length_le
          have h1 := many_length (fun t => "://".toList.isPrefixOf t) (s.dropWhile fun c => space c || c == ';')
          have h2 := lit_length hr
          have h3 := many_length (at_ [';']) r
          have h4 : ((many (at_ [';']) r).2.dropWhile fun c => space c || c == ';').length ≤ (many (at_ [';']) r).2.length :=
            (List.dropWhile_sublist _).length_le
          rw [ih m _ (by omega) (by omega)]

/-- C49: a list of files whose names contain neither white space nor semicolons is parsed to exactly these files, in the order in
which they are written. -/
theorem C49_partial (as : List (Str × Str)) (h : ∀ a ∈ as, Plain a) : parseUriList (printUriList as) = some as := by
  simp [parseUriList, uriList_print h _ printUriList_length]

/-- C49 violation: blanks in file names are lost, so that another file is opened than the one that was named. -/
theorem C49_violated_blank : parseUriList "file:///my files/c.xml".toList = some [("file".toList, "/myfiles/c.xml".toList)] := by
  decide +kernel

/-- C49 violation: an entry without a protocol is not reported but ends the list. -/
theorem C49_violated_ends : parseUriList "://a.xml;file://b.xml".toList = some [] := by decide +kernel

/-- C49 violation: a list whose first entry lacks `://` is not reported either if a later entry has it; the entries are merged. -/
theorem C49_violated_merged : parseUriList "a.xml;file://b.xml".toList = some [("a.xml;file".toList, "b.xml".toList)] := by decide +kernel

example : ∀ a ∈ [("file".toList, "/a/*.xml".toList), ("http".toList, "host/b.xml".toList)], Plain a := by
  intro a ha
  simp at ha
  rcases ha with rfl | rfl <;> constructor <;> simp [NoSp, space]

example : printUriList [("file".toList, "/a/*.xml".toList), ("http".toList, "host/b.xml".toList)] =
    "file:///a/*.xml;http://host/b.xml".toList := by decide +kernel

end Verif.Uri
