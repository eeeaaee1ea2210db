import Verif.Lemmas.Allow
import Verif.Props.C52
/-!
# C53: the allowlist means what it says

For every allowlist file in the documented format the ControlHub starts, and in enforcing mode it never starts a device client for a
device that the file does not list. Every listed device is accessible if no IP address is listed twice; with two lines for one
address only the last one counts.
-/

set_option autoImplicit false

namespace Verif.Allow
open Verif.TraMgr (Addr)
open Verif.Spec.Allow (Entry Covers Listed File)

/-- The last entry for an IP address. -/
theorem find_reverse (es : List Entry) (k : Key) :
    find ((es.map fun e => (keyOf e, portOf e)).reverse ++ []) k
      = (es.reverse.find? fun e => keyOf e == k).map portOf := by
  unfold find
  rw [List.append_nil, ← List.map_reverse, List.find?_map, Option.map_map]
  rfl

/-- The list as a parameter. -/
theorem init_file (ls : List (List Char)) (es : List Entry) (h : File ls es) :
    init (some ls) = some (.list ((es.map fun e => (keyOf e, portOf e)).reverse ++ [])) := by
  simp [init, parseLines_file ls es h []]

theorem beq_swap (k K : Key) (x ip : Nat) (h : k = K ↔ ip = x) : (k == K) = (x == ip) := by
  rw [Bool.eq_iff_iff, beq_iff_eq, beq_iff_eq, h]
  exact eq_comm

theorem find_swap (f : Entry → Key) (g : Entry → Nat) (l : List Entry) (K : Key) (ip : Nat) (h : ∀ e ∈ l, f e = K ↔ ip = g e) :
    l.find? (fun e => f e == K) = l.find? (fun e => g e == ip) := by
  induction l with
  | nil => rfl
  | cons e l ih =>
    have hb := beq_swap (f e) K (g e) ip (h e List.mem_cons_self)
    rw [List.find?_cons, List.find?_cons, hb, ih fun e he => h e (List.mem_cons_of_mem _ he)]

theorem find_key_ip (l : List Entry) (K : Key) (ip : Nat) (h : ∀ e ∈ l, keyOf e = K ↔ ip = e.ip) :
    l.find? (fun e => keyOf e == K) = l.find? (fun e => e.ip == ip) := find_swap keyOf Entry.ip l K ip h

theorem port_covers (e : Entry) (t : Addr) (hip : e.ip = t.ip) :
    (match portOf e with
      | .any => Access.allow
      | .is p => if p = some (t.port : Int) then .allow else .deny) = .allow ↔ Covers e t := by
  unfold portOf Covers
  rw [hip]
  cases hp : e.port with
  | none => simp
  | some p =>
    by_cases h : p = t.port
    · simp [h]
    · have h' : ¬ (p : Int) = (t.port : Int) := by omega
      simp [h, h']

theorem allow_iff_last (es : List Entry) (v : ∀ e ∈ es, e.Valid) (t : Addr) (ht : t.ip < 4294967296) :
    access (.list ((es.map fun e => (keyOf e, portOf e)).reverse ++ [])) t = .allow ↔
      ∃ e, es.reverse.find? (fun e => e.ip == t.ip) = some e ∧ Covers e t := by
  have hf := find_key_ip es.reverse (ipKey t.ip) t.ip fun e he => key_ip e (v e (List.mem_reverse.mp he)) t.ip ht
  clear ht v
  unfold access
  simp only
  rw [find_reverse, hf]
  clear hf
  cases hl : es.reverse.find? (fun e => e.ip == t.ip) with
  | none => simp
  | some e =>
    have hip : e.ip = t.ip := by simpa using List.find?_some hl
    have := port_covers e t hip
    simp only [Option.map_some, Option.some.injEq, exists_eq_left']
    rw [← this]
    cases portOf e <;> rfl

/-- **C53.** For every file in the documented format the parameter is set, and it allows only devices that the file lists. -/
theorem C53_sound (ls : List (List Char)) (es : List Entry) (h : File ls es) :
    ∃ par, init (some ls) = some par ∧ ∀ t : Addr, t.ip < 4294967296 → access par t = .allow → Listed es t := by
  refine ⟨_, init_file ls es h, fun t ht ha => ?_⟩
  obtain ⟨e, he, hc⟩ := (allow_iff_last es (file_valid ls es h) t ht).mp ha
  exact ⟨e, List.mem_reverse.mp (List.mem_of_find?_eq_some he), hc⟩

/-- **C53.** Exactly: the last line for an IP address decides. -/
theorem C53_last (ls : List (List Char)) (es : List Entry) (h : File ls es) :
    ∃ par, init (some ls) = some par ∧ ∀ t : Addr, t.ip < 4294967296 →
      (access par t = .allow ↔ ∃ e, es.reverse.find? (fun e => e.ip == t.ip) = some e ∧ Covers e t) ∧
      (access par t = .deny ↔ ¬ ∃ e, es.reverse.find? (fun e => e.ip == t.ip) = some e ∧ Covers e t) := by
  refine ⟨_, init_file ls es h, fun t ht => ?_⟩
  have ha := allow_iff_last es (file_valid ls es h) t ht
  refine ⟨ha, ?_⟩
  rw [← ha]
  simp only [access]
  split
  · simp
  · split <;> simp
  · simp

/-- **C53, in part.** If no IP address is listed twice, exactly the listed devices are allowed. Missing: the same for every file; it is
false, see below. -/
theorem C53_partial (ls : List (List Char)) (es : List Entry) (h : File ls es)
    (once : ∀ e ∈ es, ∀ e' ∈ es, e.ip = e'.ip → e = e') :
    ∃ par, init (some ls) = some par ∧ ∀ t : Addr, t.ip < 4294967296 → (access par t = .allow ↔ Listed es t) := by
  refine ⟨_, init_file ls es h, fun t ht => ?_⟩
  rw [allow_iff_last es (file_valid ls es h) t ht]
  constructor
  · rintro ⟨e, he, hc⟩
    exact ⟨e, List.mem_reverse.mp (List.mem_of_find?_eq_some he), hc⟩
  · rintro ⟨e, he, hc⟩
    cases hf : es.reverse.find? (fun e => e.ip == t.ip) with
    | none =>
      rw [List.find?_eq_none] at hf
      exact absurd hc.1.symm (by simpa using hf e (List.mem_reverse.mpr he))
    | some e' =>
      have h1 : e'.ip = t.ip := by simpa using List.find?_some hf
      have h2 := List.mem_reverse.mp (List.mem_of_find?_eq_some hf)
      have : e' = e := once e' h2 e he (by rw [h1, hc.1])
      exact ⟨e', rfl, by rw [this]; exact hc⟩

/-- **C53.** In enforcing mode no device client is ever started for a device that is not listed, whatever happens, and whoever asks
for it is told so. -/
theorem C53_enforced (ls : List (List Char)) (es : List Entry) (h : File ls es) :
    ∃ par, init (some ls) = some par ∧ ∀ (ev : List Registry.Event) (t : Addr), t.ip < 4294967296 → ¬ Listed es t →
      (∀ p, (p, t) ∉ (Registry.run .enforcing par {} ev).started) ∧
      ∀ c r, (c, t, r) ∈ (Registry.run .enforcing par {} ev).answers → r = .result .blocked := by
  obtain ⟨par, hi, hl⟩ := C53_last ls es h
  refine ⟨par, hi, fun ev t ht hn => ?_⟩
  have hd : access par t = .deny := by
    rw [(hl t ht).2]
    rintro ⟨e, he, hc⟩
    exact hn ⟨e, List.mem_reverse.mp (List.mem_of_find?_eq_some he), hc⟩
  have hv : verdict .enforcing par t = .blocked := by simp [verdict, hd]
  obtain ⟨h1, h2⟩ := Registry.C52_blocked .enforcing par ev
  refine ⟨fun p hp => ?_, fun c r hr => (h2 c t r hr).mpr hv⟩
  have := h1 p t hp
  rw [hv] at this
  cases this

/-- **C53.** Without a list, or in permissive mode with a list in the documented format, no device is blocked. -/
theorem C53_permissive (file : Option (List (List Char))) (h : ∀ ls, file = some ls → ∃ es, File ls es) :
    ∃ par, init file = some par ∧ ∀ mode, (file = none ∨ mode = .permissive) → ∀ t, verdict mode par t = .register := by
  cases file with
  | none => exact ⟨.none, rfl, fun mode _ t => by cases mode <;> rfl⟩
  | some ls =>
    obtain ⟨es, hf⟩ := h ls rfl
    refine ⟨_, init_file ls es hf, fun mode hm t => ?_⟩
    rcases hm with hm | rfl
    · cases hm
    · simp only [verdict, access]
      generalize find _ _ = o
      rcases o with _ | (_ | p)
      · rfl
      · rfl
      · by_cases e : p = some (t.port : Int) <;> simp [e]

/-! ## What does not hold -/

/-- The characters of a text. -/
def chars (s : String) : List Char := s.toList

/-- Two ports of one device. -/
def twoPorts : List (List Char) := [chars "10.0.0.1:50001", chars "10.0.0.1:50002"]

/-- Its entries. -/
def twoPortsEntries : List Entry := [⟨10, 0, 0, 1, some 50001⟩, ⟨10, 0, 0, 1, some 50002⟩]

theorem text_10 (p : List Char) (n : Nat) (h : Spec.Allow.Num p) (hn : Spec.Allow.value p = n) :
    Spec.Allow.Line (chars "10.0.0.1:" ++ p) (some ⟨10, 0, 0, 1, some n⟩) := by
  subst hn
  have := Spec.Allow.Line.entry 0 0 0 0 _ _
    (Spec.Allow.Text.mk ['1', '0'] ['0'] ['0'] ['1'] (':' :: p) ⟨10, 0, 0, 1, some (Spec.Allow.value p)⟩
      ⟨⟨by decide, by decide⟩, by decide, rfl⟩ ⟨⟨by decide, by decide⟩, by decide, rfl⟩
      ⟨⟨by decide, by decide⟩, by decide, rfl⟩ ⟨⟨by decide, by decide⟩, by decide, rfl⟩ (.some p h)
      ⟨by simp, by simp, by simp, by simp⟩)
  simpa [chars] using this

theorem twoPorts_file : File twoPorts twoPortsEntries :=
  .add (text_10 (chars "50001") 50001 ⟨by decide, by decide⟩ (by decide))
    (.add (text_10 (chars "50002") 50002 ⟨by decide, by decide⟩ (by decide)) .nil)

/-- **C53, violated.** A device that is listed is not allowed if a later line lists another port of the same address. -/
theorem C53_violated_ports :
    ∃ ls es t par, File ls es ∧ Listed es t ∧ init (some ls) = some par ∧ access par t = .deny ∧
      verdict .enforcing par t = .blocked :=
  ⟨twoPorts, twoPortsEntries, ⟨167772161, 50001⟩, _, twoPorts_file,
    ⟨⟨10, 0, 0, 1, some 50001⟩, by decide, by decide, Or.inr rfl⟩, init_file _ _ twoPorts_file, by decide +kernel, by decide +kernel⟩

/-- **C53, violated.** Outside the documented format: a blank line of space, tab, space makes `init` fail, the ControlHub runs all the same,
and whoever asks for any device crashes, even in permissive mode. -/
theorem C53_violated_blank :
    init (some [chars "10.0.0.1", chars " \t "]) = some .unset ∧ ∀ mode t, verdict mode .unset t = .crash := by
  refine ⟨by decide +kernel, fun mode t => ?_⟩
  cases mode <;> rfl

/-- **C53, violated.** A remark after an address can turn into a port: only this port is allowed. -/
theorem C53_violated_remark :
    ∃ par, init (some [chars "10.0.0.1 # firmware v3.7"]) = some par ∧ access par ⟨167772161, 50001⟩ = .deny ∧
      access par ⟨167772161, 7⟩ = .allow :=
  ⟨_, rfl, by decide +kernel, by decide +kernel⟩

/-- **C53, violated.** A line without a single dot passes the regular expression and then ends the application. -/
theorem C53_violated_crash : init (some [chars "1234567"]) = none := by decide +kernel

/-- **C53, violated.** A space before a tab hides the address: the line is accepted and allows nothing. -/
theorem C53_violated_tab :
    ∃ par, init (some [chars " \t10.0.0.1"]) = some par ∧ access par ⟨167772161, 50001⟩ = .deny :=
  ⟨_, rfl, by decide +kernel⟩

/-! ## Cases -/

/-- A file with a comment, a blank line and entries with and without port. -/
def sample : List (List Char) :=
  [chars "# devices", chars "\t  ", chars "\t 10.0.0.1:50001 ", chars "10.0.0.2"]

example : ∃ par, init (some sample) = some par ∧ access par ⟨167772161, 50001⟩ = .allow ∧ access par ⟨167772161, 50002⟩ = .deny ∧
    access par ⟨167772162, 1⟩ = .allow ∧ access par ⟨167772163, 50001⟩ = .deny :=
  ⟨_, rfl, by decide +kernel, by decide +kernel, by decide +kernel, by decide +kernel⟩

theorem one_file : File [chars "10.0.0.1:50001"] [⟨10, 0, 0, 1, some 50001⟩] :=
  .add (text_10 (chars "50001") 50001 ⟨by decide, by decide⟩ (by decide)) .nil

example : ∃ par, init (some [chars "10.0.0.1:50001"]) = some par ∧
    ∀ t : Addr, t.ip < 4294967296 → (access par t = .allow ↔ Listed [⟨10, 0, 0, 1, some 50001⟩] t) :=
  C53_partial _ _ one_file (by decide)

example : ¬ Listed [⟨10, 0, 0, 1, some 50001⟩] ⟨167772161, 50002⟩ := by
  rintro ⟨e, he, _, h⟩
  simp only [List.mem_singleton] at he
  subst he
  simp at h

end Verif.Allow
