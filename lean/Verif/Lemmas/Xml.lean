import Verif.Spec.Xml
/-!
# Lemmas about the rule parser: hashes are sets of attribute names
-/

set_option autoImplicit false

namespace Verif

/-- The attribute names known to a parser, in the order of their bits. -/
def Parser.names (p : Parser) : List Str := p.hashes.map (·.1)

/-- The hash table gives bit `i` to the `i`-th name. -/
structure Parser.Wf (p : Parser) : Prop where
  hash : p.hashes = p.names.zipIdx.map (fun x => (x.1, 1#64 <<< x.2))
  nodup : p.names.Nodup
  len : p.names.length ≤ 64
  next : p.next = 1#64 <<< p.names.length

/-- The hash `h` is the set `xs` of names. -/
structure Means (N : List Str) (h : Hash) (xs : List Str) : Prop where
  sub : ∀ x ∈ xs, x ∈ N
  bit : ∀ i, h.getLsbD i = true ↔ ∃ x ∈ xs, N.idxOf x = i

theorem idxOf_inj {N : List Str} {x y : Str} (hx : x ∈ N) (h : N.idxOf x = N.idxOf y) : x = y := by
  have h1 := List.getElem_idxOf (xs := N) (List.idxOf_lt_length_of_mem hx)
  have hy : N.idxOf y < N.length := h ▸ List.idxOf_lt_length_of_mem hx
  have h2 := List.getElem_idxOf (xs := N) hy
  simp only [h] at h1
  rw [← h1, h2]

theorem idxOf_append_mem {N M : List Str} {x : Str} (h : x ∈ N) : (N ++ M).idxOf x = N.idxOf x := by
  rw [List.idxOf_append, if_pos h]

theorem idxOf_append_notMem {N M : List Str} {x : Str} (h : x ∉ N) : (N ++ M).idxOf x = M.idxOf x + N.length := by
  rw [List.idxOf_append, if_neg h]

theorem find?_zip (N : List Str) (k : Nat) (x : Str) :
    ((N.zipIdx k).map (fun x => (x.1, 1#64 <<< x.2))).find? (·.1 == x) =
      if x ∈ N then some (x, 1#64 <<< (k + N.idxOf x)) else none := by
  induction N generalizing k with
  | nil => rfl
  | cons y N ih =>
    rw [List.zipIdx_cons, List.map_cons, List.find?_cons]
    by_cases h : y = x
    · subst h; simp
    · have : (y == x) = false := by simpa using h
      simp only [this, List.mem_cons]
      rw [ih (k + 1), List.idxOf_cons]
      have h' : ¬ x = y := fun e => h e.symm
      simp only [h', false_or, this, cond_false]
      rw [show k + 1 + N.idxOf x = k + (N.idxOf x + 1) by omega]

theorem Parser.Wf.find {p : Parser} (w : p.Wf) (x : Str) :
    p.find x = if x ∈ p.names then some (1#64 <<< p.names.idxOf x) else none := by
  unfold Parser.find
  rw [w.hash, find?_zip]
  split <;> simp

theorem one_shift_bit (k i : Nat) (hk : k < 64) : (1#64 <<< k).getLsbD i = true ↔ i = k := by
  simp only [BitVec.getLsbD_shiftLeft, BitVec.getLsbD_one]
  simp; omega

theorem Means.single {N : List Str} {x : Str} (h : x ∈ N) (hl : N.length ≤ 64) :
    Means N (1#64 <<< N.idxOf x) [x] := by
  refine ⟨by simpa using h, fun i => ?_⟩
  have := List.idxOf_lt_length_of_mem h
  rw [one_shift_bit _ _ (by omega)]
  simp [eq_comm]

theorem Means.or {N : List Str} {h k : Hash} {xs ys : List Str} (a : Means N h xs) (b : Means N k ys) :
    Means N (h ||| k) (xs ++ ys) := by
  refine ⟨fun x hx => ?_, fun i => ?_⟩
  · rcases List.mem_append.1 hx with h | h
    · exact a.sub x h
    · exact b.sub x h
  · rw [BitVec.getLsbD_or, Bool.or_eq_true, a.bit, b.bit]
    simp only [List.mem_append]
    constructor
    · rintro (⟨x, h, e⟩ | ⟨x, h, e⟩)
      · exact ⟨x, .inl h, e⟩
      · exact ⟨x, .inr h, e⟩
    · rintro ⟨x, h | h, e⟩
      · exact .inl ⟨x, h, e⟩
      · exact .inr ⟨x, h, e⟩

theorem Means.nil (N : List Str) : Means N 0#64 [] := ⟨by simp, by simp⟩

theorem Means.mono {N M : List Str} {h : Hash} {xs : List Str} (a : Means N h xs) : Means (N ++ M) h xs := by
  refine ⟨fun x hx => List.mem_append_left _ (a.sub x hx), fun i => ?_⟩
  rw [a.bit]
  constructor
  · rintro ⟨x, hx, e⟩; exact ⟨x, hx, by rw [idxOf_append_mem (a.sub x hx), e]⟩
  · rintro ⟨x, hx, e⟩; exact ⟨x, hx, by rw [← e, idxOf_append_mem (a.sub x hx)]⟩

/-- `hash` either finds the name or enters it. -/
theorem Parser.Wf.hash_some {p p' : Parser} {x : Str} {h : Hash} (w : p.Wf) (e : p.hash x = some (h, p')) :
    p'.Wf ∧ p'.rules = p.rules ∧ p'.names = setInsert x p.names ∧ x ∈ p'.names ∧ h = 1#64 <<< p'.names.idxOf x := by
  unfold Parser.hash at e
  rw [w.find] at e
  by_cases hx : x ∈ p.names
  · rw [if_pos hx] at e
    cases e
    exact ⟨w, rfl, by simp [setInsert, hx], hx, rfl⟩
  · rw [if_neg hx] at e
    simp only [] at e
    by_cases hz : p.next = 0#64
    · rw [if_pos hz] at e; cases e
    · rw [if_neg hz] at e
      cases e
      have hn : ({ p with hashes := p.hashes ++ [(x, p.next)], next := p.next <<< 1 } : Parser).names = p.names ++ [x] := by
        simp [Parser.names]
      have hl : p.names.length < 64 := by
        apply Nat.lt_of_not_le
        intro hge
        apply hz
        rw [w.next]
        exact BitVec.shiftLeft_eq_zero hge
      have hidx : (p.names ++ [x]).idxOf x = p.names.length := by
        rw [idxOf_append_notMem hx]; simp
      refine ⟨⟨?_, ?_, ?_, ?_⟩, rfl, ?_, ?_, ?_⟩
      · rw [hn]
        show p.hashes ++ [(x, p.next)] = _
        rw [List.zipIdx_append, List.map_append, ← w.hash, w.next]
        simp
      · rw [hn]
        exact List.nodup_append.2 ⟨w.nodup, by simp, by
          intro a ha b hb; rw [List.mem_singleton] at hb; subst hb; exact fun e => hx (e ▸ ha)⟩
      · rw [hn]; simp; omega
      · rw [hn]
        show p.next <<< 1 = _
        rw [w.next, ← BitVec.shiftLeft_add]
        simp
      · rw [hn]; simp [setInsert, hx]
      · rw [hn]; simp
      · rw [hn, hidx, w.next]

/-- `hash` fails only when the name is new and there are 64 names. -/
theorem Parser.Wf.hash_none {p : Parser} {x : Str} (w : p.Wf) :
    p.hash x = none ↔ x ∉ p.names ∧ p.names.length = 64 := by
  unfold Parser.hash
  rw [w.find]
  by_cases hx : x ∈ p.names
  · simp [hx]
  · rw [if_neg hx]
    simp only []
    have : p.next = 0#64 ↔ p.names.length = 64 := by
      rw [w.next]
      constructor
      · intro h
        apply Nat.le_antisymm w.len
        apply Nat.le_of_not_lt
        intro hlt
        have := (one_shift_bit _ p.names.length hlt).2 rfl
        rw [h] at this; simp at this
      · intro h; exact BitVec.shiftLeft_eq_zero (by omega)
    by_cases hz : p.next = 0#64
    · rw [if_pos hz]; simp [hx, this.1 hz]
    · rw [if_neg hz]
      constructor
      · intro h; cases h
      · rintro ⟨_, h⟩; exact absurd (this.2 h) hz

/-- Entering a list of names into a list of distinct names. -/
def addNames (N : List Str) (xs : List Str) : List Str := xs.foldl (fun N x => setInsert x N) N

theorem setInsert_prefix (x : Str) (N : List Str) : ∃ M, setInsert x N = N ++ M := by
  unfold setInsert; split
  · exact ⟨[], by simp⟩
  · exact ⟨[x], rfl⟩

theorem addNames_prefix (N xs : List Str) : ∃ M, addNames N xs = N ++ M := by
  induction xs generalizing N with
  | nil => exact ⟨[], by simp [addNames]⟩
  | cons x xs ih =>
    obtain ⟨M1, h1⟩ := setInsert_prefix x N
    obtain ⟨M2, h2⟩ := ih (setInsert x N)
    exact ⟨M1 ++ M2, by
      show addNames (setInsert x N) xs = _
      rw [h2, h1, List.append_assoc]⟩

theorem mem_setInsert {x y : Str} {N : List Str} : y ∈ setInsert x N ↔ y ∈ N ∨ y = x := by
  unfold setInsert; split
  · rename_i h
    have : x ∈ N := by simpa using h
    constructor
    · exact .inl
    · rintro (h | h)
      · exact h
      · subst h; exact this
  · simp

theorem mem_addNames {y : Str} {N xs : List Str} : y ∈ addNames N xs ↔ y ∈ N ∨ y ∈ xs := by
  induction xs generalizing N with
  | nil => simp [addNames]
  | cons x xs ih =>
    show y ∈ addNames (setInsert x N) xs ↔ _
    rw [ih, mem_setInsert, List.mem_cons, or_assoc]

theorem Parser.Wf.hashAll {p p' : Parser} {xs ys : List Str} {acc h : Hash} (w : p.Wf) (ha : Means p.names acc ys)
    (e : p.hashAll xs acc = some (h, p')) :
    p'.Wf ∧ p'.rules = p.rules ∧ p'.names = addNames p.names xs ∧ Means p'.names h (ys ++ xs) := by
  induction xs generalizing p acc ys with
  | nil =>
    cases e
    exact ⟨w, rfl, rfl, by simpa using ha⟩
  | cons x xs ih =>
    unfold Parser.hashAll at e
    cases hh : p.hash x with
    | none => rw [hh] at e; cases e
    | some r =>
      obtain ⟨k, q⟩ := r
      rw [hh] at e
      obtain ⟨w', hr, hn, hx, hk⟩ := w.hash_some hh
      obtain ⟨M, hM⟩ := setInsert_prefix x p.names
      have ha' : Means q.names (acc ||| k) (ys ++ [x]) := by
        refine Means.or ?_ (hk ▸ Means.single hx w'.len)
        rw [hn, hM]; exact ha.mono
      obtain ⟨a, b, c, d⟩ := ih w' ha' e
      exact ⟨a, b.trans hr, by rw [c, hn]; rfl, by simpa using d⟩

theorem Parser.Wf.hashAll_none {p : Parser} {xs : List Str} {acc : Hash} (w : p.Wf) :
    p.hashAll xs acc = none ↔ 64 < (addNames p.names xs).length := by
  induction xs generalizing p acc with
  | nil =>
    have := w.len
    simp [Parser.hashAll, addNames]; omega
  | cons x xs ih =>
    unfold Parser.hashAll
    cases hh : p.hash x with
    | none =>
      obtain ⟨h1, h2⟩ := w.hash_none.1 hh
      obtain ⟨M, hM⟩ := addNames_prefix (setInsert x p.names) xs
      have : addNames p.names (x :: xs) = setInsert x p.names ++ M := hM
      rw [this]
      have : setInsert x p.names = p.names ++ [x] := by simp [setInsert, h1]
      rw [this]
      simp only [List.length_append, List.length_singleton]
      simp; omega
    | some r =>
      obtain ⟨k, q⟩ := r
      obtain ⟨w', _, hn, _, _⟩ := w.hash_some hh
      simp only []
      rw [ih w', hn]; rfl

/-- The rules of a parser carry the hashes of their attribute sets. -/
structure Parser.Good (p : Parser) (rs : List Rule) : Prop where
  wf : p.Wf
  len : p.rules.length = rs.length
  rule : ∀ (i : Nat) (r : Rule), rs[i]? = some r → ∃ r', p.rules[i]? = some r' ∧ r'.required = r.required ∧
    Means p.names r'.requiredHash r.required ∧ Means p.names r'.forbiddenHash r.forbidden
  known : ∀ x, x ∈ p.names ↔ ∃ r ∈ rs, x ∈ r.names

theorem Parser.Good.addRule {p p' : Parser} {rs : List Rule} {r : Rule} (g : p.Good rs) (e : p.addRule r = some p') :
    p'.Good (rs ++ [r]) := by
  unfold Parser.addRule at e
  simp only [Option.bind_eq_bind, Option.bind_eq_some_iff, Prod.exists] at e
  obtain ⟨rh, p1, e1, fh, p2, e2, oh, p3, e3, e4⟩ := e
  obtain ⟨w1, r1, n1, m1⟩ := g.wf.hashAll (Means.nil _) e1
  obtain ⟨w2, r2, n2, m2⟩ := w1.hashAll (Means.nil _) e2
  obtain ⟨w3, r3, n3, m3⟩ := w2.hashAll (Means.nil _) e3
  obtain ⟨M1, h1⟩ := addNames_prefix p.names r.required
  obtain ⟨M2, h2⟩ := addNames_prefix p1.names r.forbidden
  obtain ⟨M3, h3⟩ := addNames_prefix p2.names r.optional
  simp only [Option.pure_def, Option.some.injEq] at e4
  subst e4
  have hnames : ({ p3 with rules := p3.rules ++ [{ r with requiredHash := rh, forbiddenHash := fh }] } : Parser).names = p3.names := rfl
  have hrules : p3.rules = p.rules := by rw [r3, r2, r1]
  refine ⟨⟨w3.hash, w3.nodup, w3.len, w3.next⟩, ?_, ?_, ?_⟩
  · simp [hrules, g.len]
  · intro i q hq
    rw [hnames]
    show ∃ r', (p3.rules ++ [_])[i]? = some r' ∧ _
    rw [hrules]
    by_cases hi : i < rs.length
    · rw [List.getElem?_append_left hi] at hq
      obtain ⟨r', a, b, c, d⟩ := g.rule i q hq
      refine ⟨r', ?_, b, ?_, ?_⟩
      · rw [List.getElem?_append_left (by rw [g.len]; exact hi)]; exact a
      · rw [n3, h3, n2, h2, n1, h1]; exact c.mono.mono.mono
      · rw [n3, h3, n2, h2, n1, h1]; exact d.mono.mono.mono
    · rw [List.getElem?_append_right (by omega)] at hq
      have hi' : i - rs.length = 0 := by
        obtain ⟨hlt, _⟩ := List.getElem?_eq_some_iff.1 hq
        simp at hlt; exact hlt
      rw [hi'] at hq
      simp only [List.getElem?_cons_zero, Option.some.injEq] at hq
      subst hq
      refine ⟨{ r with requiredHash := rh, forbiddenHash := fh }, ?_, rfl, ?_, ?_⟩
      · rw [List.getElem?_append_right (by rw [g.len]; omega), g.len, hi']; rfl
      · rw [n3, h3, n2, h2]; simpa using m1.mono.mono
      · rw [n3, h3]; simpa using m2.mono
  · intro x
    rw [hnames, n3, mem_addNames, n2, mem_addNames, n1, mem_addNames, g.known]
    simp only [List.mem_append, List.mem_singleton, Rule.names]
    constructor
    · rintro (((⟨q, hq, h⟩ | h) | h) | h)
      · exact ⟨q, .inl hq, h⟩
      · exact ⟨r, .inr rfl, .inl (.inl h)⟩
      · exact ⟨r, .inr rfl, .inl (.inr h)⟩
      · exact ⟨r, .inr rfl, .inr h⟩
    · rintro ⟨q, hq | hq, h⟩
      · exact .inl (.inl (.inl ⟨q, hq, h⟩))
      · subst hq
        rcases h with (h | h) | h
        · exact .inl (.inl (.inr h))
        · exact .inl (.inr h)
        · exact .inr h

theorem Parser.Good.ofRules {p p' : Parser} {rs qs : List Rule} (g : p.Good rs) (e : Parser.ofRules qs p = some p') :
    p'.Good (rs ++ qs) := by
  induction qs generalizing p rs with
  | nil => cases e; simpa using g
  | cons q qs ih =>
    unfold Parser.ofRules at e
    simp only [Option.bind_eq_bind, Option.bind_eq_some_iff] at e
    obtain ⟨p1, e1, e2⟩ := e
    simpa using ih (g.addRule e1) e2

theorem Parser.good_empty : ({} : Parser).Good [] where
  wf := ⟨rfl, by simp [Parser.names], by simp [Parser.names], by simp [Parser.names]⟩
  len := rfl
  rule := by simp
  known := by simp [Parser.names]

/-- All names mentioned by a list of rules, each once, in order of first mention. -/
def allNames (rs : List Rule) : List Str := addNames [] (rs.flatMap Rule.names)

theorem addNames_append (N xs ys : List Str) : addNames N (xs ++ ys) = addNames (addNames N xs) ys := by
  simp [addNames, List.foldl_append]

theorem Parser.Wf.addRule {p : Parser} {r : Rule} (w : p.Wf) :
    (p.addRule r = none ↔ 64 < (addNames p.names r.names).length) ∧
    ∀ p', p.addRule r = some p' → p'.Wf ∧ p'.names = addNames p.names r.names := by
  unfold Parser.addRule
  simp only [Option.bind_eq_bind]
  have hlen : ∀ N xs, (addNames N xs).length ≥ N.length := by
    intro N xs; obtain ⟨M, h⟩ := addNames_prefix N xs; rw [h]; simp
  have key : addNames p.names r.names =
      addNames (addNames (addNames p.names r.required) r.forbidden) r.optional := by
    simp [Rule.names, addNames_append]
  rw [key]
  cases e1 : p.hashAll r.required 0#64 with
  | none =>
    have := w.hashAll_none.1 e1
    have h2 := hlen (addNames p.names r.required) r.forbidden
    have h3 := hlen (addNames (addNames p.names r.required) r.forbidden) r.optional
    refine ⟨by simp; omega, by intro p' h; simp at h⟩
  | some x1 =>
    obtain ⟨rh, p1⟩ := x1
    obtain ⟨w1, r1, n1, _⟩ := w.hashAll (Means.nil _) e1
    simp only [Option.bind_some]
    rw [← n1]
    cases e2 : p1.hashAll r.forbidden 0#64 with
    | none =>
      have := w1.hashAll_none.1 e2
      have h3 := hlen (addNames p1.names r.forbidden) r.optional
      refine ⟨by simp; omega, by intro p' h; simp at h⟩
    | some x2 =>
      obtain ⟨fh, p2⟩ := x2
      obtain ⟨w2, r2, n2, _⟩ := w1.hashAll (Means.nil _) e2
      simp only [Option.bind_some]
      rw [← n2]
      cases e3 : p2.hashAll r.optional 0#64 with
      | none =>
        have := w2.hashAll_none.1 e3
        refine ⟨by simp; omega, by intro p' h; simp at h⟩
      | some x3 =>
        obtain ⟨oh, p3⟩ := x3
        obtain ⟨w3, r3, n3, _⟩ := w2.hashAll (Means.nil _) e3
        simp only [Option.bind_some]
        rw [← n3]
        have := w3.len
        refine ⟨by simp; omega, ?_⟩
        intro p' h
        simp only [Option.pure_def, Option.some.injEq] at h
        subst h
        exact ⟨⟨w3.hash, w3.nodup, w3.len, w3.next⟩, rfl⟩

theorem Parser.Wf.ofRules_none {p : Parser} {qs : List Rule} (w : p.Wf) :
    Parser.ofRules qs p = none ↔ 64 < (addNames p.names (qs.flatMap Rule.names)).length := by
  induction qs generalizing p with
  | nil =>
    have := w.len
    simp [Parser.ofRules, addNames]; omega
  | cons q qs ih =>
    unfold Parser.ofRules
    simp only [Option.bind_eq_bind, List.flatMap_cons, addNames_append]
    obtain ⟨h1, h2⟩ := w.addRule (r := q)
    cases e : p.addRule q with
    | none =>
      have := h1.1 e
      obtain ⟨M, hM⟩ := addNames_prefix (addNames p.names q.names) (qs.flatMap Rule.names)
      rw [hM]
      simp; omega
    | some p1 =>
      obtain ⟨w1, n1⟩ := h2 p1 e
      simp only [Option.bind_some]
      rw [ih w1, n1]

/-! ## The test of a rule -/

theorem bv_eq_zero_iff (x : Hash) : x = 0#64 ↔ ∀ i, x.getLsbD i = false := by
  constructor
  · intro h i; subst h; simp
  · intro h; apply BitVec.eq_of_getLsbD_eq; intro i hi; simp [h i]

theorem passes_iff {N : List Str} {r r' : Rule} {h : Hash} {xs : List Str}
    (mr : Means N r'.requiredHash r.required) (mf : Means N r'.forbiddenHash r.forbidden) (mh : Means N h xs) :
    r'.passes h = true ↔ Accepts r xs := by
  have hf : (r'.forbiddenHash &&& h = 0#64) ↔ ∀ x ∈ r.forbidden, x ∉ xs := by
    rw [bv_eq_zero_iff]
    constructor
    · intro hz x hx hxs
      have := hz (N.idxOf x)
      rw [BitVec.getLsbD_and, (mf.bit _).2 ⟨x, hx, rfl⟩, (mh.bit _).2 ⟨x, hxs, rfl⟩] at this
      cases this
    · intro hz i
      rw [BitVec.getLsbD_and]
      cases hb : r'.forbiddenHash.getLsbD i with
      | false => rfl
      | true =>
        cases hb2 : h.getLsbD i with
        | false => rfl
        | true =>
          obtain ⟨x, hx, e⟩ := (mf.bit i).1 hb
          obtain ⟨y, hy, e'⟩ := (mh.bit i).1 hb2
          have := idxOf_inj (mf.sub x hx) (e.trans e'.symm)
          subst this
          exact absurd hy (hz x hx)
  have hr : (r'.requiredHash &&& ~~~h = 0#64) ↔ ∀ x ∈ r.required, x ∈ xs := by
    rw [bv_eq_zero_iff]
    constructor
    · intro hz x hx
      have hb := (mr.bit (N.idxOf x)).2 ⟨x, hx, rfl⟩
      have hi : N.idxOf x < 64 := BitVec.lt_of_getLsbD hb
      have := hz (N.idxOf x)
      rw [BitVec.getLsbD_and, hb, BitVec.getLsbD_not] at this
      have hb2 : h.getLsbD (N.idxOf x) = true := by simpa [hi] using this
      obtain ⟨y, hy, e⟩ := (mh.bit _).1 hb2
      have := idxOf_inj (mr.sub x hx) e.symm
      subst this; exact hy
    · intro hz i
      rw [BitVec.getLsbD_and, BitVec.getLsbD_not]
      cases hb : r'.requiredHash.getLsbD i with
      | false => rfl
      | true =>
        obtain ⟨x, hx, e⟩ := (mr.bit i).1 hb
        rw [(mh.bit i).2 ⟨x, hz x hx, e⟩]
        simp
  unfold Rule.passes Accepts
  rw [← hf, ← hr]
  by_cases a : r'.forbiddenHash &&& h = 0#64 <;> by_cases b : r'.requiredHash &&& ~~~h = 0#64 <;> simp [a, b]

theorem Parser.Wf.attrHash {p : Parser} (w : p.Wf) (xs ys : List Str) (acc : Hash) (ha : Means p.names acc ys) :
    (p.attrHash xs acc = none ∧ ∃ x ∈ xs, x ∉ p.names) ∨
    (∃ h, p.attrHash xs acc = some h ∧ Means p.names h (ys ++ xs) ∧ ∀ x ∈ xs, x ∈ p.names) := by
  induction xs generalizing acc ys with
  | nil => exact .inr ⟨acc, rfl, by simpa using ha, by simp⟩
  | cons x xs ih =>
    unfold Parser.attrHash
    rw [w.find]
    by_cases hx : x ∈ p.names
    · rw [if_pos hx]
      simp only []
      rcases ih (ys ++ [x]) _ (ha.or (Means.single hx w.len)) with ⟨a, y, b, c⟩ | ⟨h, a, b, c⟩
      · exact .inl ⟨a, y, by simp [b], c⟩
      · exact .inr ⟨h, a, by simpa using b, by simp [hx]; exact c⟩
    · rw [if_neg hx]
      exact .inl ⟨rfl, x, by simp, hx⟩

/-! ## The most stringent rule -/

/-- What the loop knows after the entries `seen`. -/
structure Strict (seen : List (Nat × Rule)) (m : Option Nat) (cnt : Nat) : Prop where
  max : ∀ x ∈ seen, x.2.required.length ≤ cnt
  some : ∀ i, m = Option.some i → ∃ r, (i, r) ∈ seen ∧ r.required.length = cnt ∧
    ∀ x ∈ seen, x.1 ≠ i → x.2.required.length < cnt
  none : m = Option.none → (seen = [] ∧ cnt = 0) ∨ (∃ x, seen = [x] ∧ x.2.required.length = 0 ∧ cnt = 0) ∨
    ∃ x ∈ seen, ∃ y ∈ seen, x.1 ≠ y.1 ∧ x.2.required.length = cnt ∧ y.2.required.length = cnt

theorem mostStringent_spec (l seen : List (Nat × Rule)) (m : Option Nat) (cnt : Nat) (s : Strict seen m cnt)
    (nd : ((seen ++ l).map (·.1)).Nodup) :
    Strict (seen ++ l) (mostStringent l (m, cnt)).1 (mostStringent l (m, cnt)).2 := by
  induction l generalizing seen m cnt with
  | nil => simpa [mostStringent] using s
  | cons x l ih =>
    obtain ⟨i, r⟩ := x
    have e : seen ++ (i, r) :: l = (seen ++ [(i, r)]) ++ l := by simp
    rw [e] at nd ⊢
    have hi : ∀ x ∈ seen, x.1 ≠ i := by
      intro x hx he
      rw [List.map_append, List.map_append] at nd
      have := (List.nodup_append.1 nd).1
      rw [List.nodup_append] at this
      exact this.2.2 x.1 (List.mem_map_of_mem hx) i (by simp) he
    unfold mostStringent
    by_cases h1 : cnt < r.required.length
    · rw [if_pos h1]
      refine ih _ _ _ ⟨?_, ?_, by intro h; cases h⟩ nd
      · intro x hx
        rcases List.mem_append.1 hx with h | h
        · have := s.max x h; omega
        · rw [List.mem_singleton] at h; subst h; exact Nat.le_refl _
      · intro j hj
        cases hj
        refine ⟨r, by simp, rfl, ?_⟩
        intro x hx hne
        rcases List.mem_append.1 hx with h | h
        · have := s.max x h; omega
        · rw [List.mem_singleton] at h; subst h; exact absurd rfl hne
    rw [if_neg h1]
    by_cases h2 : cnt = r.required.length
    · rw [if_pos h2]
      refine ih _ _ _ ⟨?_, ?_, ?_⟩ nd
      · intro x hx
        rcases List.mem_append.1 hx with h | h
        · exact s.max x h
        · rw [List.mem_singleton] at h; subst h; exact h2 ▸ Nat.le_refl _
      · intro j hj; cases hj
      · intro _
        have two : ∀ x ∈ seen, x.2.required.length = cnt →
            ∃ x ∈ seen ++ [(i, r)], ∃ y ∈ seen ++ [(i, r)], x.1 ≠ y.1 ∧ x.2.required.length = cnt ∧ y.2.required.length = cnt :=
          fun x hx hl => ⟨x, by simp [hx], (i, r), by simp, hi x hx, hl, h2.symm⟩
        cases hm : m with
        | some j =>
          obtain ⟨r', h, hl, _⟩ := s.some j hm
          exact .inr (.inr (two _ h hl))
        | none =>
          rcases s.none hm with ⟨h, h0⟩ | ⟨x, h, h0, h0'⟩ | ⟨x, hx, y, hy, h⟩
          · subst h
            exact .inr (.inl ⟨(i, r), rfl, by rw [← h0, h2], h0⟩)
          · exact .inr (.inr (two x (by simp [h]) (by rw [h0, h0'])))
          · exact .inr (.inr ⟨x, by simp [hx], y, by simp [hy], h⟩)
    · rw [if_neg h2]
      refine ih _ _ _ ⟨?_, ?_, ?_⟩ nd
      · intro x hx
        rcases List.mem_append.1 hx with h | h
        · exact s.max x h
        · rw [List.mem_singleton] at h; subst h; show r.required.length ≤ cnt; omega
      · intro j hj
        obtain ⟨r', h, hl, ho⟩ := s.some j hj
        refine ⟨r', by simp [h], hl, ?_⟩
        intro x hx hne
        rcases List.mem_append.1 hx with h | h
        · exact ho x h hne
        · rw [List.mem_singleton] at h; subst h; show r.required.length < cnt; omega
      · intro hm
        rcases s.none hm with ⟨h, h0⟩ | ⟨x, h, h0, h0'⟩ | ⟨x, hx, y, hy, h⟩
        · omega
        · omega
        · exact .inr (.inr ⟨x, by simp [hx], y, by simp [hy], h⟩)

end Verif
