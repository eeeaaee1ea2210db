import Verif.Model.ExcText
import Verif.Model.Node
/-!
# C64: texts of exceptions

See `/verif/properties.jsonl` and `DESIGN.md`. The model is `Verif/Model/ExcText.lean`.
-/

set_option autoImplicit false
set_option linter.unusedSimpArgs false

namespace Verif

namespace Spec

/-- An exception as the user thinks of it: its description, the texts that have been added, and whether the user has looked at it. -/
structure Said where
  desc : Str
  texts : List Str
  looked : Bool
deriving DecidableEq, Repr

def Said.all (e : Said) : Str := e.texts.flatten

/-- What the user is to see. -/
def Said.show (e : Said) : Str := if e.all = [] then e.desc ++ " (no additional info)".toList else e.all

/-- Exceptions, and what the user has seen. -/
structure Talk where
  objs : List (Option Said)
  shown : List Str
deriving DecidableEq, Repr

/-- What the operations mean. -/
def Talk.step (s : Talk) : ExcOp → Talk
  | .create d => { s with objs := s.objs ++ [some ⟨d, [], false⟩] }
  | .append i t => { s with objs := s.objs.modify i (Option.map fun e => { e with texts := e.texts ++ [t] }) }
  | .log i t => { s with objs := s.objs.modify i (Option.map fun e => { e with texts := e.texts ++ [t, ['\n']] }) }
  | .copy i => { s with objs := s.objs ++ [(s.objs[i]?).join] }
  | .assign i j => { s with objs := s.objs.modify i (Option.map fun e => { e with texts := ((s.objs[j]?).join.map Said.texts).getD [], looked := false }) }
  | .what i => ⟨s.objs.modify i (Option.map fun e => { e with looked := true }), s.shown ++ (((s.objs[i]?).join).map Said.show).toList⟩
  | .destroy i => { s with objs := s.objs.set i none }

def Talk.run (s : Talk) : List ExcOp → Talk
  | [] => s
  | op :: ops => (s.step op).run ops

/-- The user has looked at an exception that has no text yet. -/
def Said.peeked (e : Said) : Prop := e.looked = true ∧ e.all = []

/-- Hypotheses of C64 for one step: the exceptions exist, texts contain no zero characters and are shorter than 65536 in all, and none is added to or taken from
an exception that the user has looked at while it had no text. -/
def Talk.fine (s : Talk) : ExcOp → Prop
  | .create d => '\x00' ∉ d ∧ d.length < 65500
  | .append i t => ∃ e, (s.objs[i]?).join = some e ∧ '\x00' ∉ t ∧ e.all.length + t.length < 65536 ∧ ¬ e.peeked
  | .log i t => ∃ e, (s.objs[i]?).join = some e ∧ '\x00' ∉ t ∧ e.all.length + t.length + 1 < 65536 ∧ ¬ e.peeked
  | .assign i j => i ≠ j ∧ (∃ e, (s.objs[i]?).join = some e) ∧ ∃ f, (s.objs[j]?).join = some f ∧ ¬ f.peeked
  | .copy i | .what i | .destroy i => ∃ e, (s.objs[i]?).join = some e

/-- … for all steps. -/
def Talk.allFine (s : Talk) : List ExcOp → Prop
  | [] => True
  | op :: ops => s.fine op ∧ (s.step op).allFine ops

end Spec

open Spec

/-- An exception and what the user thinks of it. -/
structure ExcObj.Is (e : ExcObj) (a : Said) : Prop where
  desc : e.desc = a.desc
  plain : ¬ a.peeked → e.text = a.all
  peek : a.peeked → e.text = a.desc ++ noInfo
  len : a.all.length < 65536
  dlen : a.desc.length < 65500
  dzero : '\x00' ∉ a.desc

theorem cstr_self {s : Str} (h : '\x00' ∉ s) : cstr s = s := by
  induction s with
  | nil => rfl
  | cons c s ih =>
    rw [List.mem_cons, not_or] at h
    have hc : (decide (c ≠ '\x00')) = true := by simpa using fun h' => h.1 h'.symm
    rw [cstr, List.takeWhile_cons, if_pos hc]
    exact congrArg _ (ih h.2)

theorem ExcObj.Is.tlen {e : ExcObj} {a : Said} (h : e.Is a) : e.text.length < 65536 := by
  by_cases hp : a.peeked
  · rw [h.peek hp, List.length_append]
    have := h.dlen
    have : noInfo.length = 21 := by decide
    omega
  · rw [h.plain hp]; exact h.len

/-- **C64, when memory is overwritten.** `append` writes outside of the allocated block if and only if the text is then 65536 bytes or longer. -/
theorem C64_append_iff (e : ExcObj) (s : Str) (h : e.text.length < 65536) :
    e.append s = none ↔ 65536 ≤ e.text.length + (cstr s).length := by
  simp only [ExcObj.append, cStrncat, excCap, Option.map_eq_none_iff, List.length_take]
  split <;> simp <;> omega

theorem append_is {e : ExcObj} {a : Said} (h : e.Is a) {t : Str} {ts : List Str} (hts : ts.flatten = t) (hz : '\x00' ∉ t) (hl : a.all.length + t.length < 65536) (hp : ¬ a.peeked) :
    ∃ f, e.append t = some f ∧ f.Is { a with texts := a.texts ++ ts } := by
  have ht := h.plain hp
  have htl : (List.take (65536 - e.text.length) t) = t := List.take_of_length_le (by rw [ht]; omega)
  refine ⟨{ e with text := e.text ++ t }, ?_, ?_⟩
  · simp only [ExcObj.append, cStrncat, excCap, cstr_self hz, htl]
    rw [if_pos (by rw [ht]; omega)]
    rfl
  · have hall : Said.all { a with texts := a.texts ++ ts } = a.all ++ t := by simp [Said.all, hts]
    refine ⟨h.desc, ?_, ?_, ?_, h.dlen, h.dzero⟩
    · intro _; rw [hall, ht]
    · rintro ⟨hk, he⟩
      rw [hall] at he
      exact absurd ⟨hk, (List.append_eq_nil_iff.1 he).1⟩ hp
    · rw [hall, List.length_append]; exact hl

theorem what_is {e : ExcObj} {a : Said} (h : e.Is a) : ∃ f, e.what = some (f, a.show) ∧ f.Is { a with looked := true } := by
  by_cases ha : a.all = []
  · have hsh : a.show = a.desc ++ noInfo := by rw [Said.show, if_pos ha]; rfl
    have hn : noInfo.length = 21 := by decide
    have hd := h.dlen
    have his : ({ e with text := a.desc ++ noInfo } : ExcObj).Is { a with looked := true } := by
      refine ⟨h.desc, ?_, ?_, h.len, hd, h.dzero⟩
      · intro hp; exact absurd ⟨rfl, ha⟩ hp
      · intro _; rfl
    by_cases hp : a.peeked
    · refine ⟨e, ?_, ?_⟩
      · rw [ExcObj.what, if_pos (by rw [h.peek hp, List.length_append]; omega), h.peek hp, hsh]
      · have : e = { e with text := a.desc ++ noInfo } := by rw [← h.peek hp]
        rw [this]; exact his
    · refine ⟨{ e with text := a.desc ++ noInfo }, ?_, his⟩
      have hz : '\x00' ∉ a.desc ++ noInfo := by
        rw [List.mem_append]
        rintro (h' | h')
        · exact h.dzero h'
        · exact absurd h' (by decide)
      rw [ExcObj.what, if_neg (by rw [h.plain hp, ha]; simp), h.desc, cstr_self hz, cStrncpy, excCap, if_pos (by rw [List.length_append]; omega), hsh]
      rfl
  · have hp : ¬ a.peeked := fun hp => ha hp.2
    have ht := h.plain hp
    refine ⟨e, ?_, ?_⟩
    · rw [ExcObj.what, if_pos (by rw [ht]; simpa using ha), ht, Said.show, if_neg ha]
    · exact ⟨h.desc, fun _ => ht, fun hk => absurd hk.2 ha, h.len, h.dlen, h.dzero⟩

/-- Exceptions and what the user thinks of them. -/
def ExcSt.Is (s : ExcSt) (a : Talk) : Prop :=
  s.shown = a.shown ∧ s.objs.length = a.objs.length ∧
  ∀ i : Nat, match (s.objs[i]?).join, (a.objs[i]?).join with
    | some e, some x => e.Is x
    | none, none => True
    | _, _ => False

theorem ExcSt.Is.get {s : ExcSt} {a : Talk} (h : s.Is a) {i : Nat} {x : Said} (hx : (a.objs[i]?).join = some x) :
    i < a.objs.length ∧ ∃ e, s.get i = some e ∧ e.Is x := by
  refine ⟨?_, ?_⟩
  · by_cases hi : i < a.objs.length
    · exact hi
    · rw [List.getElem?_eq_none (Nat.le_of_not_lt hi)] at hx; cases hx
  · have := h.2.2 i
    rw [hx] at this
    cases hg : (s.objs[i]?).join with
    | none => rw [hg] at this; exact this.elim
    | some e => rw [hg] at this; exact ⟨e, hg, this⟩

theorem ExcSt.Is.put {s : ExcSt} {a : Talk} (h : s.Is a) {i : Nat} {x : Said} (hx : (a.objs[i]?).join = some x) {g : Said → Said} {e : ExcObj} (he : e.Is (g x)) (t t' : List Str)
    (ht : t = t') :
    ExcSt.Is ⟨s.objs.set i (some e), t⟩ ⟨a.objs.modify i (Option.map g), t'⟩ := by
  have hi := (h.get hx).1
  refine ⟨ht, by simp [h.2.1], ?_⟩
  intro j
  by_cases hj : i = j
  · subst hj
    have h1 : ((s.objs.set i (some e))[i]?).join = some e := by
      rw [List.getElem?_set_self (by rw [h.2.1]; exact hi)]; rfl
    have h2 : ((a.objs.modify i (Option.map g))[i]?).join = some (g x) := by
      rw [List.getElem?_modify_eq]
      cases ho : a.objs[i]? with
      | none => rw [ho] at hx; cases hx
      | some o =>
        rw [ho] at hx
        cases o with
        | none => cases hx
        | some y => cases hx; rfl
    simp only [h1, h2]
    exact he
  · have := h.2.2 j
    simp only [List.getElem?_set_ne hj, List.getElem?_modify_ne _ _ hj]
    exact this

theorem ExcSt.Is.push {s : ExcSt} {a : Talk} (h : s.Is a) {e : ExcObj} {x : Said} (he : e.Is x) :
    ExcSt.Is { s with objs := s.objs ++ [some e] } { a with objs := a.objs ++ [some x] } := by
  refine ⟨h.1, by simp [h.2.1], ?_⟩
  intro j
  rcases Nat.lt_trichotomy j a.objs.length with hj | hj | hj
  · have := h.2.2 j
    simp only [List.getElem?_append_left hj, List.getElem?_append_left (h.2.1 ▸ hj)]
    exact this
  · have h1 : ((s.objs ++ [some e])[j]?).join = some e := by rw [hj, ← h.2.1]; simp
    have h2 : ((a.objs ++ [some x])[j]?).join = some x := by rw [hj]; simp
    simp only [h1, h2]
    exact he
  · have h1 : (s.objs ++ [some e])[j]? = none := List.getElem?_eq_none (by simp [h.2.1]; omega)
    have h2 : (a.objs ++ [some x])[j]? = none := List.getElem?_eq_none (by simp; omega)
    simp [h1, h2]

theorem step_is {s : ExcSt} {a : Talk} (h : s.Is a) {op : ExcOp} (hf : a.fine op) : ∃ s', s.step op = some s' ∧ s'.Is (a.step op) := by
  cases op with
  | create d =>
    refine ⟨_, rfl, h.push ⟨rfl, fun _ => rfl, ?_, ?_, hf.2, hf.1⟩⟩
    · rintro ⟨hk, _⟩; cases hk
    · simp [Said.all]
  | append i t =>
    obtain ⟨x, hx, hz, hl, hp⟩ := hf
    obtain ⟨_, e, hg, he⟩ := h.get hx
    obtain ⟨f, h1, h2⟩ := append_is he (ts := [t]) (by simp) hz hl hp
    refine ⟨s.put i f, by rw [ExcSt.step, hg, Option.bind_some, h1]; rfl, ?_⟩
    exact h.put hx (g := fun e => { e with texts := e.texts ++ [t] }) h2 _ _ h.1
  | log i t =>
    obtain ⟨x, hx, hz, hl, hp⟩ := hf
    obtain ⟨_, e, hg, he⟩ := h.get hx
    obtain ⟨f, h1, h2⟩ := append_is he (t := t ++ ['\n']) (ts := [t, ['\n']]) (by simp) (by
      rw [List.mem_append]
      rintro (h' | h')
      · exact hz h'
      · exact absurd h' (by decide)) (by rw [List.length_append]; simp; omega) hp
    refine ⟨s.put i f, by rw [ExcSt.step, hg, Option.bind_some, h1]; rfl, ?_⟩
    exact h.put hx (g := fun e => { e with texts := e.texts ++ [t, ['\n']] }) h2 _ _ h.1
  | copy i =>
    obtain ⟨x, hx⟩ := hf
    obtain ⟨_, e, hg, he⟩ := h.get hx
    have hc : e.copy = some e := by
      have := he.tlen
      rw [ExcObj.copy, cStrcpy, excCap, if_pos (by omega)]
      rfl
    refine ⟨{ s with objs := s.objs ++ [some e] }, by rw [ExcSt.step, hg, Option.bind_some, hc]; rfl, ?_⟩
    rw [Talk.step, hx]
    exact h.push he
  | assign i j =>
    obtain ⟨hij, ⟨x, hx⟩, y, hy, hp⟩ := hf
    obtain ⟨_, e, hg, he⟩ := h.get hx
    obtain ⟨_, f, hg', hf'⟩ := h.get hy
    have hl := hf'.tlen
    refine ⟨s.put i { e with text := f.text }, ?_, ?_⟩
    · rw [ExcSt.step, hg, Option.bind_some, hg', Option.bind_some, if_neg hij, ExcObj.assign, cStrcpy, excCap, if_pos (by omega)]
      rfl
    · refine h.put hx (g := fun e => { e with texts := ((a.objs[j]?).join.map Said.texts).getD [], looked := false }) ?_ _ _ h.1
      rw [hy]
      refine ⟨he.desc, ?_, ?_, hf'.len, he.dlen, he.dzero⟩
      · intro _; exact hf'.plain hp
      · rintro ⟨hk, _⟩; cases hk
  | what i =>
    obtain ⟨x, hx⟩ := hf
    obtain ⟨_, e, hg, he⟩ := h.get hx
    obtain ⟨f, h1, h2⟩ := what_is he
    refine ⟨⟨s.objs.set i (some f), s.shown ++ [x.show]⟩, by rw [ExcSt.step, hg, Option.bind_some, h1]; rfl, ?_⟩
    rw [Talk.step, hx]
    exact h.put hx (g := fun e => { e with looked := true }) h2 _ _ (by rw [h.1]; rfl)
  | destroy i =>
    obtain ⟨x, hx⟩ := hf
    obtain ⟨hi, e, hg, he⟩ := h.get hx
    refine ⟨{ s with objs := s.objs.set i none }, by rw [ExcSt.step, hg]; rfl, h.1, by simp [Talk.step, h.2.1], ?_⟩
    intro j
    by_cases hj : i = j
    · subst hj
      simp only [Talk.step]
      rw [List.getElem?_set_self (by rw [h.2.1]; exact hi), List.getElem?_set_self hi]
      trivial
    · have := h.2.2 j
      simp only [Talk.step, List.getElem?_set_ne hj]
      exact this

theorem run_is {s : ExcSt} {a : Talk} (h : s.Is a) (ops : List ExcOp) (hf : a.allFine ops) : ∃ s', s.run ops = some s' ∧ s'.Is (a.run ops) := by
  induction ops generalizing s a with
  | nil => exact ⟨s, rfl, h⟩
  | cons op ops ih =>
    obtain ⟨s1, h1, h2⟩ := step_is h hf.1
    obtain ⟨s2, h3, h4⟩ := ih h2 hf.2
    exact ⟨s2, by rw [ExcSt.run, h1, Option.bind_some, h3], h4⟩

/-- **C64.** For every history of exceptions (construction, texts added directly or by `log`, copies, assignments, looks, destruction) whose texts stay
below 65536 bytes and in which nothing is added to an exception that was looked at while it had no text: no memory outside of the exceptions is written, and
whoever looks at an exception sees all texts added to it (or to those it was copied from), in order, or else its description. -/
theorem C64_partial (ops : List ExcOp) (h : (⟨[], []⟩ : Talk).allFine ops) :
    ∃ s, ExcSt.init.run ops = some s ∧ s.shown = (Talk.run ⟨[], []⟩ ops).shown := by
  obtain ⟨s, h1, h2⟩ := run_is (s := .init) (a := ⟨[], []⟩) ⟨rfl, rfl, by intro i; simp [ExcSt.init]⟩ ops h
  exact ⟨s, h1, h2.1⟩

/-- The text of the exception that `Node::getNode` throws, /repo/uhal/uhal/src/common/Node.cpp:461-463. -/
def branchText (id path : Str) : Str :=
  ("No branch found with ID-path ".toList ++ ['"']) ++ id ++ (['"'] ++ " from node ".toList ++ ['"'] ++ path ++ ['"'] ++ " (no partial match)".toList)

/-- Violation of C64: `getNode` with an id of 65536 characters or more that does not exist writes a byte behind the allocated memory. -/
theorem C64_violated_overflow (d id path : Str) (hi : '\x00' ∉ id) (hl : 65536 ≤ id.length) :
    ExcSt.init.run [.create d, .log 0 (branchText id path)] = none := by
  have h : (ExcObj.new d).append (branchText id path ++ ['\n']) = none := by
    rw [C64_append_iff _ _ (by simp [ExcObj.new])]
    have hz : ∀ pre post : Str, '\x00' ∉ pre → 65536 ≤ (cstr (pre ++ id ++ post)).length := by
      intro pre post hp
      have : cstr (pre ++ id ++ post) = (pre ++ id) ++ cstr post := by
        rw [cstr, List.takeWhile_append_of_pos]
        · rfl
        · intro c hc
          simp only [ne_eq, decide_not, Bool.not_eq_eq_eq_not, Bool.not_true, decide_eq_false_iff_not]
          intro h'
          subst h'
          rcases List.mem_append.1 hc with hc | hc
          · exact hp hc
          · exact hi hc
      rw [this]
      simp only [List.length_append]
      omega
    obtain ⟨pre, post, hp, he⟩ : ∃ pre post : Str, '\x00' ∉ pre ∧ branchText id path ++ ['\n'] = pre ++ id ++ post := by
      exact ⟨_, _, by decide +kernel, List.append_assoc _ _ _⟩
    rw [he]
    exact Nat.le_trans (hz pre post hp) (Nat.le_add_left _ _)
  simp only [ExcSt.run, ExcSt.step, ExcSt.init, ExcSt.get, Option.bind_some, List.nil_append, List.getElem?_cons_zero, Option.join_some, h, Option.map_none, Option.bind_none]

/-- Such ids exist, and a node without children has no descendant with any id. -/
theorem getNode_leaf (d : NodeData) (id : Str) (h : id ≠ []) : Node.getNode ⟨d, []⟩ id = none := by
  have hs : ∀ (s acc : Str), Node.splitDots s acc ≠ [] := by
    intro s
    induction s with
    | nil => intro acc; simp [Node.splitDots]
    | cons c s ih =>
      intro acc
      by_cases hc : c = '.'
      · subst hc; simp [Node.splitDots]
      · rw [Node.splitDots.eq_3 _ _ _ (fun h => hc h)]; exact ih _
  rw [Node.getNode, if_neg h]
  cases hx : Node.splitDots id [] with
  | nil => exact absurd hx (hs _ _)
  | cons x xs => rw [Node.descend]; rfl

example (n : Nat) : ∃ id : Str, '\x00' ∉ id ∧ n + 1 ≤ id.length ∧ Node.getNode ⟨{}, []⟩ id = none :=
  ⟨List.replicate (n + 1) 'a', by simp [List.mem_replicate], by rw [List.length_replicate]; exact Nat.le_refl _,
    getNode_leaf _ _ (by rw [Ne, List.replicate_eq_nil_iff]; omega)⟩

/-- Violation of C64: looking at an exception without a text changes the text it has later. -/
theorem C64_violated_look : (ExcSt.init.run [.create "Bad".toList, .append 0 "x".toList, .what 0]).map ExcSt.shown = some ["x".toList] ∧
    (ExcSt.init.run [.create "Bad".toList, .what 0, .append 0 "x".toList, .what 0]).map ExcSt.shown =
      some ["Bad (no additional info)".toList, "Bad (no additional info)x".toList] := by decide +kernel

/-- Non-vacuity of `C64_partial`. -/
example : (⟨[], []⟩ : Talk).allFine [.create "Bad".toList, .log 0 "a".toList, .copy 0, .append 1 "b".toList, .create "Worse".toList, .what 2, .assign 2 1, .what 0, .destroy 0, .what 1, .what 2] ∧
    (Talk.run ⟨[], []⟩ [.create "Bad".toList, .log 0 "a".toList, .copy 0, .append 1 "b".toList, .create "Worse".toList, .what 2, .assign 2 1, .what 0, .destroy 0, .what 1, .what 2]).shown =
      ["Worse (no additional info)".toList, "a\n".toList, "a\nb".toList, "a\nb".toList] := by
  refine ⟨?_, by decide +kernel⟩
  simp [Talk.allFine, Talk.fine, Talk.step, Said.peeked, Said.all]

end Verif
