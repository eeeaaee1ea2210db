import Verif.Lemmas.Xml
/-!
# C37: attribute rules select the right kind of node
-/

set_option autoImplicit false

namespace Verif

/-- The rules that accept the attribute names, with their positions. -/
def candidates (rs : List Rule) (i : Nat) (r : Rule) (names : List Str) : Prop :=
  rs[i]? = some r ∧ Accepts r names

/-- The list of passed rules in `Parser.select`. -/
def Parser.passed (p : Parser) (h : Hash) : List (Nat × Rule) :=
  (p.rules.zipIdx.filter (fun x => x.1.passes h)).map (fun x => (x.2, x.1))

theorem mem_passed {p : Parser} {h : Hash} {i : Nat} {r : Rule} :
    (i, r) ∈ p.passed h ↔ p.rules[i]? = some r ∧ r.passes h = true := by
  unfold Parser.passed
  simp only [List.mem_map, List.mem_filter, Prod.mk.injEq, Prod.exists]
  constructor
  · rintro ⟨r', i', ⟨h1, h2⟩, e1, e2⟩
    subst e1; subst e2
    exact ⟨by simpa using List.mem_zipIdx_iff_getElem?.1 h1, h2⟩
  · rintro ⟨h1, h2⟩
    exact ⟨r, i, ⟨List.mem_zipIdx_iff_getElem?.2 h1, h2⟩, rfl, rfl⟩

theorem nodup_filter_zipIdx (l : List Rule) (k : Nat) (f : Rule × Nat → Bool) :
    (((l.zipIdx k).filter f).map (·.2)).Nodup ∧ ∀ x ∈ ((l.zipIdx k).filter f).map (·.2), k ≤ x := by
  induction l generalizing k with
  | nil => simp
  | cons a l ih =>
    rw [List.zipIdx_cons, List.filter_cons]
    obtain ⟨h1, h2⟩ := ih (k + 1)
    split
    · rw [List.map_cons, List.nodup_cons]
      refine ⟨⟨fun h => ?_, h1⟩, ?_⟩
      · have := h2 _ h; simp at this; omega
      · intro x hx
        rcases List.mem_cons.1 hx with h | h
        · subst h; exact Nat.le_refl _
        · have := h2 x h; omega
    · exact ⟨h1, fun x hx => by have := h2 x hx; omega⟩

theorem nodup_passed (p : Parser) (h : Hash) : ((p.passed h).map (·.1)).Nodup := by
  unfold Parser.passed
  rw [List.map_map]
  exact (nodup_filter_zipIdx _ _ _).1

/-- Passed rules are the candidates. -/
theorem Parser.Good.passed_iff {p : Parser} {rs : List Rule} {h : Hash} {xs : List Str} (g : p.Good rs)
    (mh : Means p.names h xs) (i : Nat) :
    (∀ r, candidates rs i r xs → ∃ r', (i, r') ∈ p.passed h ∧ r'.required = r.required) ∧
    (∀ r', (i, r') ∈ p.passed h → ∃ r, candidates rs i r xs ∧ r'.required = r.required) := by
  constructor
  · rintro r ⟨h1, h2⟩
    obtain ⟨r', a, b, c, d⟩ := g.rule i r h1
    exact ⟨r', mem_passed.2 ⟨a, (passes_iff c d mh).2 h2⟩, b⟩
  · intro r' h'
    obtain ⟨h1, h2⟩ := mem_passed.1 h'
    have hi : i < rs.length := by rw [← g.len]; exact (List.getElem?_eq_some_iff.1 h1).1
    obtain ⟨r'', a, b, c, d⟩ := g.rule i rs[i] (List.getElem?_eq_getElem hi)
    rw [h1] at a
    cases a
    exact ⟨rs[i], ⟨List.getElem?_eq_getElem hi, (passes_iff c d mh).1 h2⟩, b⟩

/-- The outcome of the parser in terms of the rules it was given. -/
inductive Selects (rs : List Rule) (attrs : List (Str × Str)) : Sel → Prop
  /-- an attribute that no rule mentions -/
  | unknown {a : Str × Str} : a ∈ attrs → (∀ r ∈ rs, a.1 ∉ r.names) → Selects rs attrs .unknownAttribute
  /-- the accepting rule with strictly most requirements -/
  | rule {i : Nat} {r : Rule} : (∀ a ∈ attrs, ∃ r ∈ rs, a.1 ∈ r.names) → candidates rs i r (attrs.map (·.1)) →
      (∀ j r', candidates rs j r' (attrs.map (·.1)) → j ≠ i → r'.required.length < r.required.length) →
      Selects rs attrs (.rule i)
  /-- two accepting rules with most requirements -/
  | ambiguous {i j : Nat} {r r' : Rule} : (∀ a ∈ attrs, ∃ r ∈ rs, a.1 ∈ r.names) →
      candidates rs i r (attrs.map (·.1)) → candidates rs j r' (attrs.map (·.1)) → i ≠ j →
      r.required.length = r'.required.length →
      (∀ k r'', candidates rs k r'' (attrs.map (·.1)) → r''.required.length ≤ r.required.length) →
      Selects rs attrs .ambiguous
  /-- no accepting rule -/
  | nothing : (∀ a ∈ attrs, ∃ r ∈ rs, a.1 ∈ r.names) → (∀ i r, ¬ candidates rs i r (attrs.map (·.1))) →
      attrs ≠ [] → Selects rs attrs .noRulesPassed
  /-- no accepting rule and no attribute: the message cannot be built -/
  | crash : (∀ i r, ¬ candidates rs i r (attrs.map (·.1))) → attrs = [] → Selects rs attrs .lengthError

/-- The outcomes exclude each other. -/
theorem Selects.unique {rs : List Rule} {attrs : List (Str × Str)} {x y : Sel} (hx : Selects rs attrs x)
    (hy : Selects rs attrs y) : x = y := by
  have kn : ∀ {a : Str × Str}, a ∈ attrs → (∀ r ∈ rs, a.1 ∉ r.names) → (∀ a ∈ attrs, ∃ r ∈ rs, a.1 ∈ r.names) → False := by
    intro a ha h k; obtain ⟨r, hr, h'⟩ := k a ha; exact h r hr h'
  have mem : ∀ {i : Nat} {r r' : Rule}, candidates rs i r (attrs.map (·.1)) → candidates rs i r' (attrs.map (·.1)) → r = r' := by
    intro i r r' h h'; have := h.1.symm.trans h'.1; simpa using this
  cases hx with
  | unknown ha h =>
    cases hy with
    | unknown _ _ => rfl
    | rule k _ _ => exact absurd k (fun k => kn ha h k)
    | ambiguous k _ _ _ _ _ => exact absurd k (fun k => kn ha h k)
    | nothing k _ _ => exact absurd k (fun k => kn ha h k)
    | crash _ e => subst e; simp at ha
  | rule k hc hm =>
    rename_i i r
    cases hy with
    | unknown ha h => exact absurd k (fun k => kn ha h k)
    | rule k' hc' hm' =>
      rename_i j r'
      by_cases hij : j = i
      · subst hij; rfl
      · have a := hm _ _ hc' hij
        have b := hm' _ _ hc (Ne.symm hij)
        omega
    | ambiguous k' h1 h2 hne he hle =>
      rename_i a b ra rb
      by_cases hai : a = i
      · subst hai
        have := mem h1 hc; subst this
        have := hm _ _ h2 (Ne.symm hne); omega
      · have := hm _ _ h1 hai
        have := hle _ _ hc; omega
    | nothing _ h _ => exact absurd hc (h _ _)
    | crash h _ => exact absurd hc (h _ _)
  | ambiguous k h1 h2 hne he hle =>
    rename_i a b ra rb
    cases hy with
    | unknown ha h => exact absurd k (fun k => kn ha h k)
    | rule k' hc hm =>
      rename_i i r
      by_cases hai : a = i
      · subst hai
        have := mem h1 hc; subst this
        have := hm _ _ h2 (Ne.symm hne); omega
      · have := hm _ _ h1 hai
        have := hle _ _ hc; omega
    | ambiguous _ _ _ _ _ _ => rfl
    | nothing _ h _ => exact absurd h1 (h _ _)
    | crash h _ => exact absurd h1 (h _ _)
  | nothing k h hne =>
    cases hy with
    | unknown ha h' => exact absurd k (fun k => kn ha h' k)
    | rule _ hc _ => exact absurd hc (h _ _)
    | ambiguous _ h1 _ _ _ _ => exact absurd h1 (h _ _)
    | nothing _ _ _ => rfl
    | crash _ e => exact absurd e hne
  | crash h e =>
    cases hy with
    | unknown ha _ => subst e; simp at ha
    | rule _ hc _ => exact absurd hc (h _ _)
    | ambiguous _ h1 _ _ _ _ => exact absurd h1 (h _ _)
    | nothing _ _ hne => exact absurd e hne
    | crash _ _ => rfl

/-- **C37** (selection): a parser built from the rules `rs` behaves exactly as described by `Selects`. -/
theorem C37_select {rs : List Rule} {p : Parser} (h : Parser.ofRules rs {} = some p) (attrs : List (Str × Str)) (out : Sel) :
    p.select attrs = out ↔ Selects rs attrs out := by
  have g : p.Good rs := by simpa using Parser.good_empty.ofRules h
  have main : Selects rs attrs (p.select attrs) := by
    unfold Parser.select
    rcases g.wf.attrHash (attrs.map (·.1)) [] 0#64 (Means.nil _) with ⟨e, x, hx, hn⟩ | ⟨hh, e, mh, hk⟩
    · rw [e]
      obtain ⟨a, ha, rfl⟩ := List.mem_map.1 hx
      refine .unknown ha ?_
      intro r hr hm
      exact hn ((g.known _).2 ⟨r, hr, hm⟩)
    · rw [e]
      simp only [List.nil_append] at mh
      have known : ∀ a ∈ attrs, ∃ r ∈ rs, a.1 ∈ r.names := by
        intro a ha
        exact (g.known _).1 (hk _ (List.mem_map_of_mem ha))
      have pi := fun i => g.passed_iff mh i
      show Selects rs attrs (match p.passed hh with
        | [x] => .rule x.1
        | x :: y :: rest => match (mostStringent (x :: y :: rest) (none, 0)).1 with
          | some i => .rule i
          | none => .ambiguous
        | [] => if (attrs.flatMap (fun a => a.1 ++ ['=', '"'] ++ a.2 ++ ['"', ',', ' '])).length < 2 then .lengthError else .noRulesPassed)
      cases hl : p.passed hh with
      | nil =>
        have none : ∀ i r, ¬ candidates rs i r (attrs.map (·.1)) := by
          intro i r hc
          obtain ⟨r', hm, _⟩ := (pi i).1 r hc
          rw [hl] at hm; simp at hm
        simp only []
        cases attrs with
        | nil => exact .crash none rfl
        | cons a as =>
          rw [if_neg (by simp [List.flatMap_cons]; omega)]
          exact .nothing known none (by simp)
      | cons x rest =>
        cases rest with
        | nil =>
          simp only []
          obtain ⟨i, r'⟩ := x
          obtain ⟨r, hc, hr⟩ := (pi i).2 r' (by rw [hl]; simp)
          refine .rule known hc ?_
          intro j q hq hne
          obtain ⟨q', hm, _⟩ := (pi j).1 q hq
          rw [hl] at hm
          simp at hm
          exact absurd hm.1 hne
        | cons y rest =>
          simp only []
          have nd := nodup_passed p hh
          rw [hl] at nd
          have st := mostStringent_spec (x :: y :: rest) [] none 0
            ⟨by simp, by (intro i h; cases h), fun _ => .inl ⟨rfl, rfl⟩⟩ (by simpa using nd)
          simp only [List.nil_append] at st
          cases hm : (mostStringent (x :: y :: rest) (none, 0)).1 with
          | some i =>
            simp only []
            obtain ⟨r', h1, h2, h3⟩ := st.some i hm
            obtain ⟨r, hc, hr⟩ := (pi i).2 r' (by rw [hl]; exact h1)
            refine .rule known hc ?_
            intro j q hq hne
            obtain ⟨q', hq', hqr⟩ := (pi j).1 q hq
            have := h3 _ (by rw [← hl]; exact hq') hne
            simp only [hqr] at this
            rw [← hr, h2]; exact this
          | none =>
            simp only []
            rcases st.none hm with ⟨hx, _⟩ | ⟨z, hx, _⟩ | ⟨a, ha, b, hb, hne, la, lb⟩
            · cases hx
            · simp at hx
            · rw [← hl] at ha hb
              obtain ⟨i, ra'⟩ := a
              obtain ⟨j, rb'⟩ := b
              obtain ⟨ra, ca, ea⟩ := (pi i).2 ra' ha
              obtain ⟨rb, cb, eb⟩ := (pi j).2 rb' hb
              refine .ambiguous known ca cb hne ?_ ?_
              · rw [← ea, ← eb]; exact la.trans lb.symm
              · intro k q hq
                obtain ⟨q', hq', hqr⟩ := (pi k).1 q hq
                rw [hl] at hq'
                have h1 := st.max _ hq'
                have h2 : ra'.required.length = _ := la
                rw [← ea, h2, ← hqr]; exact h1
  constructor
  · intro e; subst e; exact main
  · intro hs; exact main.unique hs

/-- **C37** (capacity): building a parser is refused exactly when the rules mention more than 64 names. -/
theorem C37_capacity (rs : List Rule) : Parser.ofRules rs {} = none ↔ 64 < (allNames rs).length :=
  Parser.good_empty.wf.ofRules_none

/-- `allNames` lists every mentioned name exactly once. -/
theorem C37_allNames (rs : List Rule) :
    (∀ x, x ∈ allNames rs ↔ ∃ r ∈ rs, x ∈ r.names) ∧ (allNames rs).Nodup := by
  constructor
  · intro x
    unfold allNames
    rw [mem_addNames]
    simp
  · unfold allNames
    generalize rs.flatMap Rule.names = l
    have : ∀ N : List Str, N.Nodup → (addNames N l).Nodup := by
      induction l with
      | nil => intro N h; exact h
      | cons x l ih =>
        intro N h
        refine ih _ ?_
        show (setInsert x N).Nodup
        unfold setInsert
        split
        · exact h
        · rename_i hx
          exact List.nodup_append.2 ⟨h, by simp, by
            intro a ha b hb
            rw [List.mem_singleton] at hb; subst hb
            intro e; subst e; simp [ha] at hx⟩
    exact this [] (by simp)

/-! ## The address-table rules -/

/-- Neither of the two parsers of `NodeTreeBuilder` meets contradictory rules or too many attributes. -/
theorem C37_builder_parsers : (∃ p, topParser = some p) ∧ (∃ p, nodeParser = some p) := by
  constructor
  · exact ⟨topParser.get (by decide +kernel), by simp⟩
  · exact ⟨nodeParser.get (by decide +kernel), by simp⟩

/-- The three rules of `mNodeParser` as attribute sets. -/
theorem nodeParser_rules : ∃ pl bm mo : Rule, nodeParser = Parser.ofRules [pl, bm, mo] {} ∧
    pl.required = [Attr.id.name] ∧ pl.forbidden = [Attr.module_.name, Attr.mask.name] ∧
    bm.required = [Attr.mask.name, Attr.id.name] ∧
    bm.forbidden = [Attr.class_.name, Attr.module_.name, Attr.mode.name, Attr.size.name] ∧
    mo.required = [Attr.module_.name, Attr.id.name] ∧
    mo.forbidden = [Attr.mask.name, Attr.mode.name, Attr.size.name, Attr.permission.name] ∧
    pl.optional = [Attr.class_.name, Attr.id.name, Attr.address.name, Attr.parameters.name, Attr.fwinfo.name,
      Attr.permission.name, Attr.mode.name, Attr.size.name, Attr.tags.name, Attr.description.name] ∧
    (∀ x ∈ bm.names ++ mo.names, x ∈ pl.names) := by
  refine ⟨((plainRule.get (by decide)).require Attr.id.name).get (by decide +kernel),
    ((maskRule.get (by decide +kernel)).require Attr.id.name).get (by decide +kernel),
    ((moduleRule.get (by decide +kernel)).require Attr.id.name).get (by decide +kernel), ?_⟩
  decide +kernel

/-- Exactly one of the three kinds of node, or no rule passes: the outcome of `mNodeParser`. -/
theorem C37_node {p : Parser} (hp : nodeParser = some p) (attrs : List (Str × Str)) :
    (p.select attrs = .unknownAttribute ↔ ¬ KnownAttrs attrs) ∧
    (p.select attrs = .rule 0 ↔ KnownAttrs attrs ∧ Has attrs .id ∧ ¬ Has attrs .mask ∧ ¬ Has attrs .module_) ∧
    (p.select attrs = .rule 1 ↔ KnownAttrs attrs ∧ Has attrs .id ∧ Has attrs .mask ∧ ¬ Has attrs .module_ ∧
      ¬ Has attrs .class_ ∧ ¬ Has attrs .mode ∧ ¬ Has attrs .size) ∧
    (p.select attrs = .rule 2 ↔ KnownAttrs attrs ∧ Has attrs .id ∧ Has attrs .module_ ∧ ¬ Has attrs .mask ∧
      ¬ Has attrs .mode ∧ ¬ Has attrs .size ∧ ¬ Has attrs .permission) ∧
    p.select attrs ≠ .ambiguous := by
  obtain ⟨pl, bm, mo, e, r1, f1, r2, f2, r3, f3, o1, sub⟩ := nodeParser_rules
  rw [hp] at e
  have sel := C37_select e.symm attrs
  have known : (∀ a ∈ attrs, ∃ r ∈ [pl, bm, mo], a.1 ∈ r.names) ↔ KnownAttrs attrs := by
    have hpl : ∀ x : Str, x ∈ pl.names ↔ ∃ a : Attr, x = a.name := by
      intro x
      simp only [Rule.names, r1, f1, o1, List.mem_append, List.mem_cons, List.not_mem_nil, or_false]
      constructor
      · rintro ((h | h | h) | h | h | h | h | h | h | h | h | h | h) <;> exact ⟨_, h⟩
      · rintro ⟨a, h⟩
        cases a <;> simp [h]
    constructor
    · intro h a ha
      obtain ⟨r, hr, hm⟩ := h a ha
      simp only [List.mem_cons, List.not_mem_nil, or_false] at hr
      rcases hr with rfl | rfl | rfl
      · exact (hpl _).1 hm
      · exact (hpl _).1 (sub _ (List.mem_append_left _ hm))
      · exact (hpl _).1 (sub _ (List.mem_append_right _ hm))
    · intro h a ha
      exact ⟨pl, by simp, (hpl _).2 (h a ha)⟩
  have a1 : Accepts pl (attrs.map (·.1)) ↔ Has attrs .id ∧ ¬ Has attrs .mask ∧ ¬ Has attrs .module_ := by
    unfold Accepts Has
    rw [r1, f1]
    simp only [List.forall_mem_cons, List.not_mem_nil, false_implies, implies_true, and_true]
    constructor
    · rintro ⟨a, b, c⟩; exact ⟨a, c, b⟩
    · rintro ⟨a, b, c⟩; exact ⟨a, c, b⟩
  have a2 : Accepts bm (attrs.map (·.1)) ↔ Has attrs .id ∧ Has attrs .mask ∧ ¬ Has attrs .module_ ∧
      ¬ Has attrs .class_ ∧ ¬ Has attrs .mode ∧ ¬ Has attrs .size := by
    unfold Accepts Has
    rw [r2, f2]
    simp only [List.forall_mem_cons, List.not_mem_nil, false_implies, implies_true, and_true]
    constructor
    · rintro ⟨⟨a, b⟩, c, d, e, f⟩; exact ⟨b, a, d, c, e, f⟩
    · rintro ⟨b, a, d, c, e, f⟩; exact ⟨⟨a, b⟩, c, d, e, f⟩
  have a3 : Accepts mo (attrs.map (·.1)) ↔ Has attrs .id ∧ Has attrs .module_ ∧ ¬ Has attrs .mask ∧
      ¬ Has attrs .mode ∧ ¬ Has attrs .size ∧ ¬ Has attrs .permission := by
    unfold Accepts Has
    rw [r3, f3]
    simp only [List.forall_mem_cons, List.not_mem_nil, false_implies, implies_true, and_true]
    constructor
    · rintro ⟨⟨a, b⟩, c⟩; exact ⟨b, a, c⟩
    · rintro ⟨b, a, c⟩; exact ⟨⟨a, b⟩, c⟩
  have cand : ∀ i r, candidates [pl, bm, mo] i r (attrs.map (·.1)) ↔
      (i = 0 ∧ r = pl ∧ Accepts pl (attrs.map (·.1))) ∨ (i = 1 ∧ r = bm ∧ Accepts bm (attrs.map (·.1))) ∨
      (i = 2 ∧ r = mo ∧ Accepts mo (attrs.map (·.1))) := by
    intro i r
    unfold candidates
    match i with
    | 0 => simp; constructor <;> (rintro ⟨rfl, h⟩; exact ⟨rfl, h⟩)
    | 1 => simp; constructor <;> (rintro ⟨rfl, h⟩; exact ⟨rfl, h⟩)
    | 2 => simp; constructor <;> (rintro ⟨rfl, h⟩; exact ⟨rfl, h⟩)
    | i + 3 => simp
  have excl : ∀ i r j r', candidates [pl, bm, mo] i r (attrs.map (·.1)) → candidates [pl, bm, mo] j r' (attrs.map (·.1)) → i = j := by
    intro i r j r' h h'
    rw [cand, a1, a2, a3] at h h'
    rcases h with ⟨rfl, _, h⟩ | ⟨rfl, _, h⟩ | ⟨rfl, _, h⟩ <;> rcases h' with ⟨rfl, _, h'⟩ | ⟨rfl, _, h'⟩ | ⟨rfl, _, h'⟩ <;>
      first | rfl | (exfalso; simp_all)
  have one : ∀ i, p.select attrs = .rule i ↔ KnownAttrs attrs ∧ ∃ r, candidates [pl, bm, mo] i r (attrs.map (·.1)) := by
    intro i
    rw [sel]
    constructor
    · intro h
      cases h with
      | rule k hc _ => exact ⟨known.1 k, _, hc⟩
    · rintro ⟨k, r, hc⟩
      exact .rule (known.2 k) hc (fun j r' hj hne => absurd (excl _ _ _ _ hj hc) hne)
  refine ⟨?_, ?_, ?_, ?_, ?_⟩
  · rw [sel]
    constructor
    · intro h hk
      cases h with
      | unknown ha hn =>
        obtain ⟨r, hr, hm⟩ := known.2 hk _ ha
        exact hn r hr hm
    · intro hk
      by_cases hx : ∃ a ∈ attrs, ∀ r ∈ [pl, bm, mo], a.1 ∉ r.names
      · obtain ⟨a, ha, hn⟩ := hx
        exact .unknown ha hn
      · exfalso
        apply hk
        rw [← known]
        intro a ha
        apply Classical.byContradiction
        intro hne
        exact hx ⟨a, ha, fun r hr hm => hne ⟨r, hr, hm⟩⟩
  · rw [one, ← a1]
    simp [cand]
  · rw [one, ← a2]
    simp [cand]
  · rw [one, ← a3]
    simp [cand]
  · intro h
    rw [sel] at h
    cases h with
    | ambiguous _ h1 h2 hne _ _ => exact hne (excl _ _ _ _ h1 h2)

/-- The three rules of `mTopLevelNodeParser` as attribute sets. -/
theorem topParser_rules : ∃ pl bm mo : Rule, topParser = Parser.ofRules [pl, bm, mo] {} ∧
    pl.required = [] ∧ pl.forbidden = [Attr.module_.name, Attr.mask.name] ∧
    bm.required = [Attr.mask.name] ∧
    bm.forbidden = [Attr.class_.name, Attr.module_.name, Attr.mode.name, Attr.size.name] ∧
    mo.required = [Attr.module_.name] ∧
    mo.forbidden = [Attr.mask.name, Attr.mode.name, Attr.size.name, Attr.permission.name] ∧
    pl.optional = [Attr.class_.name, Attr.id.name, Attr.address.name, Attr.parameters.name, Attr.fwinfo.name,
      Attr.permission.name, Attr.mode.name, Attr.size.name, Attr.tags.name, Attr.description.name] ∧
    (∀ x ∈ bm.names ++ mo.names, x ∈ pl.names) := by
  refine ⟨plainRule.get (by decide), maskRule.get (by decide +kernel), moduleRule.get (by decide +kernel), ?_⟩
  decide +kernel

/-- Exactly one of the three kinds of node, or no rule passes: the outcome of `mTopLevelNodeParser` (no id needed). -/
theorem C37_top {p : Parser} (hp : topParser = some p) (attrs : List (Str × Str)) :
    (p.select attrs = .unknownAttribute ↔ ¬ KnownAttrs attrs) ∧
    (p.select attrs = .rule 0 ↔ KnownAttrs attrs ∧ ¬ Has attrs .mask ∧ ¬ Has attrs .module_) ∧
    (p.select attrs = .rule 1 ↔ KnownAttrs attrs ∧ Has attrs .mask ∧ ¬ Has attrs .module_ ∧
      ¬ Has attrs .class_ ∧ ¬ Has attrs .mode ∧ ¬ Has attrs .size) ∧
    (p.select attrs = .rule 2 ↔ KnownAttrs attrs ∧ Has attrs .module_ ∧ ¬ Has attrs .mask ∧
      ¬ Has attrs .mode ∧ ¬ Has attrs .size ∧ ¬ Has attrs .permission) ∧
    p.select attrs ≠ .ambiguous := by
  obtain ⟨pl, bm, mo, e, r1, f1, r2, f2, r3, f3, o1, sub⟩ := topParser_rules
  rw [hp] at e
  have sel := C37_select e.symm attrs
  have known : (∀ a ∈ attrs, ∃ r ∈ [pl, bm, mo], a.1 ∈ r.names) ↔ KnownAttrs attrs := by
    have hpl : ∀ x : Str, x ∈ pl.names ↔ ∃ a : Attr, x = a.name := by
      intro x
      simp only [Rule.names, r1, f1, o1, List.mem_append, List.mem_cons, List.not_mem_nil, or_false]
      constructor
      · rintro ((h | h | h) | h | h | h | h | h | h | h | h | h | h) <;> first | exact h.elim | exact ⟨_, h⟩
      · rintro ⟨a, h⟩
        cases a <;> simp [h]
    constructor
    · intro h a ha
      obtain ⟨r, hr, hm⟩ := h a ha
      simp only [List.mem_cons, List.not_mem_nil, or_false] at hr
      rcases hr with rfl | rfl | rfl
      · exact (hpl _).1 hm
      · exact (hpl _).1 (sub _ (List.mem_append_left _ hm))
      · exact (hpl _).1 (sub _ (List.mem_append_right _ hm))
    · intro h a ha
      exact ⟨pl, by simp, (hpl _).2 (h a ha)⟩
  have a1 : Accepts pl (attrs.map (·.1)) ↔ ¬ Has attrs .mask ∧ ¬ Has attrs .module_ := by
    unfold Accepts Has
    rw [r1, f1]
    simp only [List.forall_mem_cons, List.not_mem_nil, false_implies, implies_true, and_true]
    constructor
    · rintro ⟨_, b, c⟩; exact ⟨c, b⟩
    · rintro ⟨b, c⟩; exact ⟨trivial, c, b⟩
  have a2 : Accepts bm (attrs.map (·.1)) ↔ Has attrs .mask ∧ ¬ Has attrs .module_ ∧
      ¬ Has attrs .class_ ∧ ¬ Has attrs .mode ∧ ¬ Has attrs .size := by
    unfold Accepts Has
    rw [r2, f2]
    simp only [List.forall_mem_cons, List.not_mem_nil, false_implies, implies_true, and_true]
    constructor
    · rintro ⟨a, c, d, e, f⟩; exact ⟨a, d, c, e, f⟩
    · rintro ⟨a, d, c, e, f⟩; exact ⟨a, c, d, e, f⟩
  have a3 : Accepts mo (attrs.map (·.1)) ↔ Has attrs .module_ ∧ ¬ Has attrs .mask ∧
      ¬ Has attrs .mode ∧ ¬ Has attrs .size ∧ ¬ Has attrs .permission := by
    unfold Accepts Has
    rw [r3, f3]
    simp only [List.forall_mem_cons, List.not_mem_nil, false_implies, implies_true, and_true]
  have cand : ∀ i r, candidates [pl, bm, mo] i r (attrs.map (·.1)) ↔
      (i = 0 ∧ r = pl ∧ Accepts pl (attrs.map (·.1))) ∨ (i = 1 ∧ r = bm ∧ Accepts bm (attrs.map (·.1))) ∨
      (i = 2 ∧ r = mo ∧ Accepts mo (attrs.map (·.1))) := by
    intro i r
    unfold candidates
    match i with
    | 0 => simp; constructor <;> (rintro ⟨rfl, h⟩; exact ⟨rfl, h⟩)
    | 1 => simp; constructor <;> (rintro ⟨rfl, h⟩; exact ⟨rfl, h⟩)
    | 2 => simp; constructor <;> (rintro ⟨rfl, h⟩; exact ⟨rfl, h⟩)
    | i + 3 => simp
  have excl : ∀ i r j r', candidates [pl, bm, mo] i r (attrs.map (·.1)) → candidates [pl, bm, mo] j r' (attrs.map (·.1)) → i = j := by
    intro i r j r' h h'
    rw [cand, a1, a2, a3] at h h'
    rcases h with ⟨rfl, _, h⟩ | ⟨rfl, _, h⟩ | ⟨rfl, _, h⟩ <;> rcases h' with ⟨rfl, _, h'⟩ | ⟨rfl, _, h'⟩ | ⟨rfl, _, h'⟩ <;>
      first | rfl | (exfalso; simp_all)
  have one : ∀ i, p.select attrs = .rule i ↔ KnownAttrs attrs ∧ ∃ r, candidates [pl, bm, mo] i r (attrs.map (·.1)) := by
    intro i
    rw [sel]
    constructor
    · intro h
      cases h with
      | rule k hc _ => exact ⟨known.1 k, _, hc⟩
    · rintro ⟨k, r, hc⟩
      exact .rule (known.2 k) hc (fun j r' hj hne => absurd (excl _ _ _ _ hj hc) hne)
  refine ⟨?_, ?_, ?_, ?_, ?_⟩
  · rw [sel]
    constructor
    · intro h hk
      cases h with
      | unknown ha hn =>
        obtain ⟨r, hr, hm⟩ := known.2 hk _ ha
        exact hn r hr hm
    · intro hk
      by_cases hx : ∃ a ∈ attrs, ∀ r ∈ [pl, bm, mo], a.1 ∉ r.names
      · obtain ⟨a, ha, hn⟩ := hx
        exact .unknown ha hn
      · exfalso
        apply hk
        rw [← known]
        intro a ha
        apply Classical.byContradiction
        intro hne
        exact hx ⟨a, ha, fun r hr hm => hne ⟨r, hr, hm⟩⟩
  · rw [one, ← a1]
    simp [cand]
  · rw [one, ← a2]
    simp [cand]
  · rw [one, ← a3]
    simp [cand]
  · intro h
    rw [sel] at h
    cases h with
    | ambiguous _ h1 h2 hne _ _ => exact hne (excl _ _ _ _ h1 h2)

/-- **C37** is violated for an element without attributes when no rule passes: instead of the documented
`NoRulesPassed`, building the message throws `std::length_error` (the top-level parser of address tables
accepts it as a plain node; below the top level an id is required). -/
theorem C37_violated_length_error : ∀ p, nodeParser = some p → p.select [] = .lengthError := by
  intro p hp
  obtain ⟨pl, bm, mo, e, r1, f1, r2, f2, r3, f3, o1, sub⟩ := nodeParser_rules
  rw [hp] at e
  rw [C37_select e.symm]
  refine .crash ?_ rfl
  rintro i r ⟨h, ha, _⟩
  have : r.required ≠ [] := by
    have := List.mem_of_getElem? h
    simp only [List.mem_cons, List.not_mem_nil, or_false] at this
    rcases this with rfl | rfl | rfl
    · rw [r1]; simp
    · rw [r2]; simp
    · rw [r3]; simp
  cases hq : r.required with
  | nil => exact this hq
  | cons x l => have := ha x (by simp [hq]); simp at this

-- concrete cases on the address-table parser: plain node, bit field, module, refused combination, unknown name
example : (do let p ← nodeParser; return (
    p.select [(Attr.id.name, "a".toList), (Attr.address.name, "0x4".toList)],
    p.select [(Attr.id.name, "a".toList), (Attr.mask.name, "0xF".toList)],
    p.select [(Attr.module_.name, "file://x.xml".toList), (Attr.id.name, "a".toList)],
    p.select [(Attr.id.name, "a".toList), (Attr.mask.name, "0xF".toList), (Attr.mode.name, "block".toList)],
    p.select [(Attr.id.name, "a".toList), ("colour".toList, "red".toList)])) =
    some (.rule 0, .rule 1, .rule 2, .noRulesPassed, .unknownAttribute) := by decide +kernel

-- two rules pass: the one with more requirements wins, equal numbers are ambiguous
example : (do let a ← ({} : Rule).require ['a']; let b ← a.require ['b']; let d ← ({} : Rule).require ['b']
              let p ← Parser.ofRules [a, b, d] {}
              return (p.select [(['a'], []), (['b'], [])], p.select [(['b'], [])])) =
    some (.rule 1, .rule 2) := by decide +kernel

example : (do let a ← ({} : Rule).require ['a']; let d ← ({} : Rule).require ['b']
              let p ← Parser.ofRules [a, d] {}
              return p.select [(['a'], []), (['b'], [])]) = some .ambiguous := by decide +kernel

end Verif
