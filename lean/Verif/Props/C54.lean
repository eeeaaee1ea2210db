import Verif.Props.C32
/-!
# C54: the attributes `parameters`, `fwinfo`, `class`, `tags` and `description`

What the texts mean is in `Verif/Spec/NodeAttr.lean`, how they are put together for included files in `Spec.InfoIs`
(`Verif/Spec/Builder.lean`).
-/

set_option autoImplicit false

namespace Verif
open Spec
namespace NodeAttr

/-! ## Looking up names -/

theorem lookup_filter_ne (l : List (Str × Str)) (k p : Str) : (l.filter (fun q => q.1 ≠ p)).lookup k = if k = p then none else l.lookup k := by
  induction l with
  | nil => simp
  | cons q l ih =>
    rw [List.filter_cons]
    by_cases hq : q.1 = p
    · rw [if_neg (by simpa using hq), ih, List.lookup_cons]
      by_cases hk : k = p
      · rw [if_pos hk, if_pos hk]
      · rw [if_neg hk, if_neg hk]
        have : (k == q.1) = false := by simp only [beq_eq_false_iff_ne]; rw [hq]; exact hk
        rw [this]
    · rw [if_pos (by simpa using hq), List.lookup_cons, List.lookup_cons, ih]
      by_cases hkq : k = q.1
      · subst hkq; simp [hq]
      · have : (k == q.1) = false := by simpa using hkq
        rw [this]

theorem firsts_lookup (l : List (Str × Str)) (k : Str) : (firsts l).lookup k = l.lookup k := by
  induction l with
  | nil => rfl
  | cons p l ih =>
    rw [firsts, List.lookup_cons, List.lookup_cons, lookup_filter_ne, ih]
    by_cases h : k = p.1
    · subst h; simp
    · have : (k == p.1) = false := by simpa using h
      rw [this, if_neg h]

theorem lookup_append' (l m : List (Str × Str)) (k : Str) : (l ++ m).lookup k = (l.lookup k).or (m.lookup k) := by
  induction l with
  | nil => simp
  | cons p l ih =>
    rw [List.cons_append, List.lookup_cons, List.lookup_cons, ih]
    split <;> rfl

theorem lookup_none_iff (l : List (Str × Str)) (k : Str) : l.lookup k = none ↔ k ∉ l.map Prod.fst := by
  induction l with
  | nil => simp
  | cons p l ih =>
    rw [List.lookup_cons, List.map_cons, List.mem_cons, not_or]
    by_cases h : k = p.1
    · subst h; simp
    · have : (k == p.1) = false := by simpa using h
      rw [this]; simp only [ih, h, not_false_eq_true, true_and]

theorem lookup_filter_key (l : List (Str × Str)) (f : Str → Bool) (k : Str) :
    (l.filter (fun q => f q.1)).lookup k = if f k = true then l.lookup k else none := by
  induction l with
  | nil => simp
  | cons q l ih =>
    rw [List.filter_cons, List.lookup_cons]
    by_cases hq : f q.1 = true
    · rw [if_pos hq, List.lookup_cons, ih]
      by_cases hk : k = q.1
      · subst hk; simp [hq]
      · have : (k == q.1) = false := by simpa using hk
        rw [this]
    · rw [if_neg hq, ih]
      by_cases hk : k = q.1
      · subst hk; simp [hq]
      · have : (k == q.1) = false := by simpa using hk
        rw [this]

theorem merge_lookup (l m : List (Str × Str)) (k : Str) : (merge l m).lookup k = (l.lookup k).or (m.lookup k) := by
  unfold merge
  rw [lookup_append', lookup_filter_key (firsts m) (fun q => decide (q ∉ l.map Prod.fst)), firsts_lookup]
  cases h : l.lookup k with
  | some v => rfl
  | none => rw [lookup_none_iff] at h; simp only [decide_eq_true_eq]; rw [if_pos h]

theorem firsts_nodup (l : List (Str × Str)) : ((firsts l).map Prod.fst).Nodup := by
  induction l with
  | nil => simp [firsts]
  | cons p l ih =>
    rw [firsts, List.map_cons, List.nodup_cons]
    refine ⟨?_, ih.sublist (List.filter_sublist.map _)⟩
    intro h
    rw [List.mem_map] at h
    obtain ⟨q, hq, e⟩ := h
    rw [List.mem_filter] at hq
    simp only [ne_eq, decide_not, Bool.not_eq_eq_eq_not, Bool.not_true, decide_eq_false_iff_not] at hq
    exact hq.2 e

theorem merge_nodup {l : List (Str × Str)} (h : (l.map Prod.fst).Nodup) (m : List (Str × Str)) : ((merge l m).map Prod.fst).Nodup := by
  unfold merge
  rw [List.map_append, List.nodup_append]
  refine ⟨h, (firsts_nodup m).sublist (List.filter_sublist.map _), ?_⟩
  intro a ha b hb e
  subst e
  rw [List.mem_map] at hb
  obtain ⟨q, hq, rfl⟩ := hb
  rw [List.mem_filter] at hq
  simp only [decide_eq_true_eq] at hq
  exact hq.2 ha

/-! ## `parameters` -/

/-- **C54** (parameters, every text): what is stored is the first value of every name in the longest beginning of the text that is a list of
parameters. -/
theorem C54_parameters_exact (s : Str) (m : List (Str × Str)) : parsMap s = m ↔ ∃ ps, ParsOf s ps ∧ m = firsts ps := by
  rw [parsMap_eq]
  constructor
  · rintro rfl; exact ⟨_, parsOf_exists s, rfl⟩
  · rintro ⟨ps, h, rfl⟩; rw [(parsePars_iff s ps).2 h]

/-- **C54** (parameters as written): from a text that is a list of parameters, possibly after white space, every name gets the value
that is written first. Missing for C54: other texts, see `C54_violated_parameters`. -/
theorem C54_parameters_partial {b t : Str} {ps : List (Str × Str)} (hb : ∀ c ∈ b, Blank c) (ht : ParsText t ps) (k : Str) :
    (parsMap (b ++ t)).lookup k = ps.lookup k ∧ ((parsMap (b ++ t)).map Prod.fst).Nodup := by
  have : ParsOf (b ++ t) ps := by
    refine ⟨b, t, [], by simp, hb, ?_, ht, ?_⟩
    · intro c hc
      rw [List.append_nil] at hc
      have hletter : ∀ {c : Char}, Letter c → ¬ Blank c := by
        intro c h hb
        simp only [Blank, List.mem_cons, List.not_mem_nil, or_false] at hb
        rcases hb with rfl | rfl | rfl | rfl | rfl | rfl <;> revert h <;> decide
      cases ht with
      | nil => cases hc
      | cons h _ =>
        cases h with
        | bare hk => obtain ⟨c', s, rfl, hl, _⟩ := hk; cases hc; exact hletter hl
        | value hk _ => obtain ⟨c', s, rfl, hl, _⟩ := hk; cases hc; exact hletter hl
    · intro t' r' ps' h _
      have := congrArg List.length h
      simp at this
      omega
  rw [(C54_parameters_exact (b ++ t) (firsts ps)).2 ⟨ps, this, rfl⟩]
  exact ⟨firsts_lookup ps k, firsts_nodup ps⟩

/-- Non-trivial instance of `C54_parameters_partial`. -/
example (k : Str) : (parsMap " width=32;depth=1024&fast;width=8".toList).lookup k =
    [("width".toList, "32".toList), ("depth".toList, "1024".toList), ("fast".toList, []), ("width".toList, "8".toList)].lookup k := by
  have hn : ∀ {c : Char} {s : Str}, Letter c → (∀ x ∈ s, Letter x ∨ Digit x) → Name (c :: s) := fun h h' => ⟨_, _, rfl, h, h'⟩
  have ht : ParsText ("width=32".toList ++ (';' :: ("depth=1024".toList ++ ('&' :: ("fast".toList ++ (';' :: ("width=8".toList ++ [])))))))
      [("width".toList, "32".toList), ("depth".toList, "1024".toList), ("fast".toList, []), ("width".toList, "8".toList)] :=
    .cons (.value (k := "width".toList) (v := "32".toList) (hn (by decide) (by decide)) ⟨by decide, by decide⟩)
      (.cons (.inl rfl) (.value (k := "depth".toList) (v := "1024".toList) (hn (by decide) (by decide)) ⟨by decide, by decide⟩)
        (.cons (.inr rfl) (.bare (k := "fast".toList) (hn (by decide) (by decide)))
          (.cons (.inl rfl) (.value (k := "width".toList) (v := "8".toList) (hn (by decide) (by decide)) ⟨by decide, by decide⟩) .nil)))
  exact (C54_parameters_partial (b := " ".toList) (by decide) ht k).1

/-- **C54 is violated** for `parameters`: after a value with any other character than letters, digits and underscores the rest of the text
is dropped without a word, and so it is after a space behind a separator; a negative number is no value at all. -/
theorem C54_violated_parameters :
    parsMap "gain=1.5;offset=2".toList = [("gain".toList, "1".toList)] ∧
    parsMap "a=1; b=2".toList = [("a".toList, "1".toList)] ∧
    parsMap "a=-3;b=2".toList = [("a".toList, [])] ∧
    parsMap "0x=1".toList = [] := by
  decide +kernel

/-! ## `fwinfo` -/

/-- **C54** (firmware information, every text): the type and the arguments are exactly those written; a text that says nothing is answered
with an exception. -/
theorem C54_fwinfo_exact (s : Str) :
    (∀ ty args, parseFw s = some (ty, args) ↔ FwText (s.filter (fun c => ¬ Blank c)) ty args) ∧
    (parseFw s = none ↔ ∀ ty args, ¬ FwText (s.filter (fun c => ¬ Blank c)) ty args) := by
  refine ⟨parseFw_iff s, ?_⟩
  constructor
  · intro h ty args h'
    rw [← parseFw_iff, h] at h'
    cases h'
  · intro h
    cases hp : parseFw s with
    | none => rfl
    | some p => exact absurd ((parseFw_iff s p.1 p.2).1 hp) (h _ _)

/-- Non-trivial instance of `C54_fwinfo_exact`: an end point with two arguments. -/
example : parseFw "endpoint; width=3; gap=a b".toList = some ("endpoint".toList, [("width".toList, "3".toList), ("gap".toList, "ab".toList)]) := by
  refine ((C54_fwinfo_exact _).1 _ _).2 ?_
  have e : "endpoint; width=3; gap=a b".toList.filter (fun c => ¬ Blank c) =
      "endpoint".toList ++ ';' :: ("width".toList ++ '=' :: ("3".toList ++ ';' :: ("gap".toList ++ '=' :: "ab".toList))) := by decide +kernel
  rw [e]
  exact .args (by decide) (by decide) (.more (by decide) (by decide) (by decide) (.last (by decide) (by decide) (by decide)))

/-- **C54 is violated** for `fwinfo`: an argument called `type` is dropped; without a type everything is dropped; after an empty argument the
separator becomes part of the name; an argument without a value ends in the exception of the parser library, which is none of uhal's. -/
theorem C54_violated_fwinfo :
    (setFirmwareInfo [(Attr.fwinfo.name, "endpoint;type=x".toList)] {}).toOption.map (·.fw) = some [("type".toList, "endpoint".toList)] ∧
    (setFirmwareInfo [(Attr.fwinfo.name, ";width=3".toList)] {}).toOption.map (·.fw) = some [("type".toList, [])] ∧
    (setFirmwareInfo [(Attr.fwinfo.name, "endpoint;;width=3".toList)] {}).toOption.map (·.fw) =
      some [("type".toList, "endpoint".toList), (";width".toList, "3".toList)] ∧
    (setFirmwareInfo [(Attr.fwinfo.name, "endpoint;fast".toList)] {}).toOption.map (·.fw) = none ∧
    parseFw "endpoint;fast".toList = none := by
  decide +kernel

/-! ## The tree -/

/-- **C54** (the tree): the descriptive attributes of every node of a tree that is built are those that the files declare; and what files
declare is built. -/
theorem C54_tree {env : BuildEnv} (hs : env.Sorts) (hp : env.Protocols) {c : NodeCache} (hc : Coherent env c) {e cur : Str} :
    (∀ F n c', getNodeTree env true F e cur c = .ok n c' → ∃ t, Declared env orJ e cur t ∧
      (n.table.map fun r => (r.path, r.info)).Perm ((t.rows 0#32).map fun r => (r.path, r.info))) ∧
    (∀ t, Declared env orJ e cur t → ∃ F n c', getNodeTree env true F e cur c = .ok n c' ∧
      (n.table.map fun r => (r.path, r.info)).Perm ((t.rows 0#32).map fun r => (r.path, r.info))) := by
  constructor
  · intro F n c' h
    obtain ⟨t, h1, h2⟩ := C32_sound_partial hs hp hc h
    exact ⟨t, h1, h2.map _⟩
  · intro t h
    obtain ⟨D, hD⟩ := C32_complete hs hp hc h
    obtain ⟨n, c', h1, h2⟩ := hD D (Nat.le_refl _)
    exact ⟨D, n, c', h1, h2.map _⟩

/-- **C54** (included files): a parameter of the including element counts before one of the included file; firmware information the other
way round; the class is the including element's, even if it has none. -/
theorem C54_included {attrs : List (Str × Str)} {old new : Info} (h : InfoIs attrs old new) :
    new.cls = (attr? attrs .class_).getD [] ∧
    (∀ s, attr? attrs .parameters = some s → s ≠ [] → ∃ ps, ParsOf s ps ∧ ∀ k, new.pars.lookup k = (ps.lookup k).or (old.pars.lookup k)) ∧
    (∀ s, attr? attrs .fwinfo = some s → s ≠ [] → ∃ ty args, FwText (s.filter (fun c => ¬ Blank c)) ty args ∧
      ∀ k, new.fw.lookup k = (old.fw.lookup k).or (((("type".toList), ty) :: args).lookup k)) ∧
    (attr? attrs .parameters = none → new.pars = old.pars) ∧ (attr? attrs .fwinfo = none → new.fw = old.fw) := by
  obtain ⟨h1, h2, h3, h4, h5⟩ := h
  refine ⟨h1, ?_, ?_, ?_, ?_⟩
  · intro s hs hne
    rw [hs, Option.getD_some] at h4
    rcases h4 with ⟨h, _⟩ | ⟨_, ps, hp, he⟩
    · exact absurd h hne
    · exact ⟨ps, hp, fun k => by rw [he, merge_lookup, firsts_lookup]⟩
  · intro s hs hne
    rw [hs, Option.getD_some] at h5
    rcases h5 with ⟨h, _⟩ | ⟨_, ty, args, hp, he⟩
    · exact absurd h hne
    · exact ⟨ty, args, hp, fun k => by rw [he, merge_lookup]⟩
  · intro hn
    rw [hn] at h4
    rcases h4 with ⟨_, h⟩ | ⟨h, _⟩
    · exact h
    · exact absurd rfl h
  · intro hn
    rw [hn] at h5
    rcases h5 with ⟨_, h⟩ | ⟨h, _⟩
    · exact h
    · exact absurd rfl h

/-- A file `b` with class, parameters, firmware information and tags, included by `a` with others. -/
def infoEnv : BuildEnv where
  open_ e _ := some [("file".toList, e)]
  file _ p :=
    if p = "a".toList then
      some (.el [(Attr.id.name, "TOP".toList)]
        [.el [(Attr.id.name, "M".toList), (Attr.module_.name, "b".toList), (Attr.parameters.name, "w=1;x=2".toList), (Attr.tags.name, "outer".toList),
          (Attr.fwinfo.name, "slave;n=7;m=8".toList)] []])
    else if p = "b".toList then
      some (.el [(Attr.class_.name, "C".toList), (Attr.parameters.name, "y=3;w=4".toList), (Attr.tags.name, "inner".toList),
        (Attr.fwinfo.name, "endpoint;n=5".toList), (Attr.description.name, "text".toList)]
        [.el [(Attr.id.name, "R".toList), (Attr.parameters.name, "z".toList)] []])
    else none
  known _ := false
  sort := stableSort (fun n => n.d.addr.toNat)

theorem infoEnv_sorts : infoEnv.Sorts := fun l => ⟨Node.stableSort_perm _ l, Node.stableSort_sorted _ l⟩

theorem infoEnv_protocols : infoEnv.Protocols := by
  intro e cur fs h f hf
  cases h
  simp only [List.mem_singleton] at hf
  subst hf
  exact .inl rfl

/-- Non-trivial instance of `C54_tree` and `C54_included`. The class `C` of the included file is gone. -/
example : ∃ n c', getNodeTree infoEnv true 3 "a".toList [] [] = .ok n c' ∧
    (∃ t, Declared infoEnv orJ "a".toList [] t ∧
      (n.table.map fun r => (r.path, r.info)).Perm ((t.rows 0#32).map fun r => (r.path, r.info))) ∧
    n.table.map (fun r => (r.path, r.info)) =
      [(["TOP".toList], {}),
       (["TOP".toList, "M".toList],
         { tags := "inner[outer]".toList, desc := "text".toList,
           pars := [("w".toList, "1".toList), ("x".toList, "2".toList), ("y".toList, "3".toList)],
           fw := [("type".toList, "endpoint".toList), ("n".toList, "5".toList), ("m".toList, "8".toList)] }),
       (["TOP".toList, "M".toList, "R".toList], { pars := [("z".toList, [])] })] := by
  have h : (match getNodeTree infoEnv true 3 "a".toList [] [] with
      | .ok n c' => some (n.table.map (fun r => (r.path, r.info)))
      | _ => none) = some
      [(["TOP".toList], {}),
       (["TOP".toList, "M".toList],
         { tags := "inner[outer]".toList, desc := "text".toList,
           pars := [("w".toList, "1".toList), ("x".toList, "2".toList), ("y".toList, "3".toList)],
           fw := [("type".toList, "endpoint".toList), ("n".toList, "5".toList), ("m".toList, "8".toList)] }),
       (["TOP".toList, "M".toList, "R".toList], { pars := [("z".toList, [])] })] := by decide +kernel
  cases hg : getNodeTree infoEnv true 3 "a".toList [] [] with
  | ok n c' =>
    rw [hg] at h
    exact ⟨n, c', rfl, (C54_tree infoEnv_sorts infoEnv_protocols (Coherent.nil _)).1 3 n c' hg, by simpa using h⟩
  | exc e c' => rw [hg] at h; cases h
  | loops => rw [hg] at h; cases h

/-- **C54** (refusal): an element with a `fwinfo` text that says nothing declares no tree, so by `C54_tree` none is built from it. -/
theorem C54_refused {J : W → W → W → Prop} {I : Str → Str → Decl → Prop} {top : Bool} {cur : Str} {attrs : List (Str × Str)} {kids : List Xml}
    {s : Str} (hs : attr? attrs .fwinfo = some s) (hne : s ≠ []) (hbad : parseFw s = none) (t : Decl) :
    ¬ Declares J I top cur (.el attrs kids) t := by
  have key : ∀ old new, ¬ InfoIs attrs old new := by
    intro old new h
    obtain ⟨ty, args, h1, _⟩ := (C54_included h).2.2.1 s hs hne
    exact ((C54_fwinfo_exact s).2.1 hbad) ty args h1
  obtain ⟨uid, part, mask, perm, mode, size, info, ks⟩ := t
  rw [Declares]
  rintro ⟨_, h | h | h⟩
  · exact key _ _ h.2.2.2.2.2.2.2.2.1
  · exact key _ _ h.2.2.2.2.2.2.2.2.2.2.2.1
  · obtain ⟨_, _, _, _, _, m, ru, rp, off, ri, _, _, _, _, _, hi⟩ := h
    exact key _ _ hi

end NodeAttr
end Verif
