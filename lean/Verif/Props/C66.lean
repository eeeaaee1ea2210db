import Verif.Model.Log
/-!
# C66: log output

See `/verif/properties.jsonl` and `DESIGN.md`. The model is `Verif/Model/Log.lean`.
-/

set_option autoImplicit false
set_option linter.unusedSimpArgs false

namespace Verif.Log

namespace Spec

/-- The names of the levels, the most severe one first. -/
def names : List Str := ["FATAL".toList, "ERROR".toList, "WARNING".toList, "NOTICE".toList, "INFO".toList, "DEBUG".toList]

/-- One complete message of thread `t` in the stream. -/
def Line (t : Nat) (m : Msg) (b : List Out) : Prop :=
  ∃ colour time name, names[m.level]? = some name ∧
    b = [.text colour, .stamp time, .text " [".toList, .id t, .text "]".toList, .text (" ".toList ++ (name ++ " - ".toList))] ++ m.args.map .text ++ [.text "\x1B[0m".toList, .text ['\n']]

/-- The stream consists of complete messages. -/
inductive Lines : List Out → List (Nat × Msg) → Prop
  | nil : Lines [] []
  | more {o b : List Out} {ms : List (Nat × Msg)} {t : Nat} {m : Msg} : Lines o ms → Line t m b → Lines (o ++ b) (ms ++ [(t, m)])

/-- The messages of a thread. -/
def of (t : Nat) (ms : List (Nat × Msg)) : List Msg := (ms.filter fun p => p.1 == t).map (·.2)

/-- A level is wanted: at least as severe as the current one, and neither it nor a more severe one has been excluded when compiling. -/
def Wanted (x : Excl) (cur : Option Nat) (l : Nat) : Prop := (∃ c, cur = some c ∧ l ≤ c) ∧ ∀ i, i ≤ l → x i = false

instance (x : Excl) (cur : Option Nat) (l : Nat) : Decidable (Wanted x cur l) := by
  unfold Wanted
  exact match cur with
    | none => isFalse (by rintro ⟨⟨_, h, _⟩, _⟩; cases h)
    | some c => decidable_of_iff (l ≤ c ∧ ∀ i, i ≤ l → x i = false) (by simp)

/-- The level whose name begins with the letter, small or large. -/
def byLetter (c : Char) : Option Nat := names.findIdx? fun n => n.head? == some c || n.head?.map Char.toLower == some c

/-- The messages of one thread: the level is that of the last call that has set it. -/
def say (x : Excl) (cur : Option Nat) : List Op → List Msg
  | [] => []
  | .log m :: r => (if Wanted x cur m.level then [m] else []) ++ say x cur r
  | .set l :: r => say x (some l) r
  | .disable :: r => say x none r
  | .env name v :: r =>
    match v.bind fun s => s.head?.bind byLetter with
    | some l => say x (some l) r
    | none =>
      -- a warning, and then level Info
      (if Wanted x cur 2 then [⟨2, match v with
        | none => ["No environment variable ".toList, quote name, " set. Using level ".toList, quote "Info".toList, " instead.".toList]
        | some s => ["Environment varible has invalid value ".toList, quote s, ". Using level ".toList, quote "Info".toList, " instead.".toList]⟩] else []) ++ say x (some 4) r

/-- Levels exist. -/
def OpOk : Op → Prop
  | .log m => m.level ≤ 5
  | .set l => l ≤ 5
  | _ => True

/-- The time stamps in the stream. -/
def stamps (o : List Out) : List Nat := o.filterMap fun | .stamp n => some n | _ => none

end Spec

open Spec

theorem upd_same {α : Type} (f : Nat → α) (i : Nat) (a : α) : upd f i a i = a := if_pos rfl
theorem upd_other {α : Type} (f : Nat → α) {i j : Nat} (a : α) (h : j ≠ i) : upd f i a j = f j := if_neg h

theorem of_append (t : Nat) (a b : List (Nat × Msg)) : of t (a ++ b) = of t a ++ of t b := by simp [of]
theorem of_same (t : Nat) (m : Msg) : of t [(t, m)] = [m] := by simp [of]
theorem of_other {t u : Nat} (m : Msg) (h : t ≠ u) : of t [(u, m)] = [] := by simp [of, Ne.symm h]

/-- The message that a thread is about to write or writes. -/
def Pc.pending : Pc → List Msg
  | .out => []
  | .wait m => [m]
  | .inside m _ => [m]

/-- What has been written of a message. -/
def Part (t : Nat) (pre : List Piece) (o : List Out) : Prop := ∃ times : List Nat, times.length = pre.length ∧ o = (pre.zip times).map fun p => p.1.put t p.2

theorem part_snoc {t now : Nat} {pre : List Piece} {o : List Out} {p : Piece} (h : Part t pre o) : Part t (pre ++ [p]) (o ++ [p.put t now]) := by
  obtain ⟨times, h1, rfl⟩ := h
  refine ⟨times ++ [now], by simp [h1], ?_⟩
  rw [List.zip_append h1.symm, List.map_append]
  rfl

theorem part_append {t : Nat} {a b : List Piece} {o : List Out} (h : Part t (a ++ b) o) : ∃ u v, o = u ++ v ∧ Part t a u ∧ Part t b v := by
  obtain ⟨times, h1, rfl⟩ := h
  rw [List.length_append] at h1
  refine ⟨_, _, ?_, ⟨times.take a.length, by rw [List.length_take]; omega, rfl⟩, ⟨times.drop a.length, by rw [List.length_drop]; omega, rfl⟩⟩
  rw [← List.map_append, ← List.zip_append (by rw [List.length_take]; omega), List.take_append_drop]

theorem part_texts {t : Nat} {l : List Str} {o : List Out} (h : Part t (l.map .text) o) : o = l.map .text := by
  obtain ⟨times, h1, rfl⟩ := h
  rw [List.length_map] at h1
  induction l generalizing times with
  | nil => rfl
  | cons a l ih =>
    cases times with
    | nil => cases h1
    | cons n times =>
      simp only [List.map_cons, List.zip_cons_cons]
      rw [ih times (by simpa using h1)]
      rfl

theorem name_get {l : Nat} (h : l ≤ 5) : ∃ name, names[l]? = some name ∧ (levelName l).2 = " ".toList ++ (name ++ " - ".toList) := by
  have : l = 0 ∨ l = 1 ∨ l = 2 ∨ l = 3 ∨ l = 4 ∨ l = 5 := by omega
  rcases this with rfl | rfl | rfl | rfl | rfl | rfl <;> exact ⟨_, rfl, by decide +kernel⟩

theorem part_line {t : Nat} {m : Msg} {o : List Out} (hm : m.level ≤ 5) (h : Part t m.pieces o) : Line t m o := by
  obtain ⟨name, hn, hs⟩ := name_get hm
  rw [Msg.pieces] at h
  obtain ⟨u, v, rfl, h1, h2⟩ := part_append h
  obtain ⟨u, w, rfl, h3, h4⟩ := part_append h1
  obtain rfl := part_texts h4
  obtain rfl := part_texts (l := ["\x1B[0m".toList, ['\n']]) h2
  obtain ⟨times, hl, rfl⟩ := h3
  match times, hl with
  | [a, b, c, d, e, f], _ =>
    refine ⟨(levelName m.level).1, b, name, hn, ?_⟩
    rw [← hs]
    rfl

/-- What the program has decided to write (`dec`), has written (`ms`) and has still to do (`todo`). -/
structure Inv (lock : Option Nat) (out : List Out) (thr : Nat → Thr) (ms : List (Nat × Msg)) (dec : Nat → List Msg) : Prop where
  free : lock = none → Lines out ms
  others : ∀ t, lock ≠ some t → ∀ m r, (thr t).pc ≠ .inside m r
  held : ∀ t, lock = some t → ∃ m pre rest o part, (thr t).pc = .inside m rest ∧ m.pieces = pre ++ rest ∧ out = o ++ part ∧ Lines o ms ∧ Part t pre part
  dec : ∀ t, dec t = of t ms ++ (thr t).pc.pending
  lev : ∀ t, ∀ m ∈ (thr t).pc.pending, m.level ≤ 5
  levs : ∀ t, ∀ m, Act.log m ∈ (thr t).todo → m.level ≤ 5

/-- A property of flags, of what is left to do and of what has been decided that the steps keep. -/
structure Keeps (x : Excl) (P : Flags → (Nat → List Act) → (Nat → List Msg) → Prop) : Prop where
  flag : ∀ f td dec t l b r, P f td dec → td t = .flag l b :: r → P (upd f l b) (upd td t r) dec
  log : ∀ f td dec t m r, P f td dec → td t = .log m :: r → P f (upd td t r) (if includes x f m.level then upd dec t (dec t ++ [m]) else dec)

theorem todo_upd (s : Nat → Thr) (t : Nat) (p : Pc) (r : List Act) : (fun u => (upd s t ⟨p, r⟩ u).todo) = upd (fun u => (s u).todo) t r := by
  funext u
  by_cases h : u = t
  · subst h; rw [upd_same, upd_same]
  · rw [upd_other _ _ h, upd_other _ _ h]

theorem todo_same (s : Nat → Thr) (t : Nat) (p : Pc) : (fun u => (upd s t ⟨p, (s t).todo⟩ u).todo) = fun u => (s u).todo := by
  funext u
  by_cases h : u = t
  · subst h; rw [upd_same]
  · rw [upd_other _ _ h]

theorem inv_step {x : Excl} {P : Flags → (Nat → List Act) → (Nat → List Msg) → Prop} (hP : Keeps x P) {s s' : St} {t now : Nat} {ms : List (Nat × Msg)} {dec : Nat → List Msg}
    (hi : Inv s.lock s.out s.thr ms dec) (hp : P s.flags (fun t => (s.thr t).todo) dec) (h : s.step x t now = some s') :
    ∃ ms' dec', Inv s'.lock s'.out s'.thr ms' dec' ∧ P s'.flags (fun t => (s'.thr t).todo) dec' := by
  rw [St.step] at h
  split at h
  · cases h
  · -- a flag
    rename_i l b r hpc htd
    cases h
    dsimp only
    refine ⟨ms, dec, ⟨hi.free, ?_, ?_, ?_, ?_, ?_⟩, ?_⟩
    · intro u hu m rest
      by_cases h : u = t
      · subst h; rw [upd_same]; exact Pc.noConfusion
      · rw [upd_other _ _ h]; exact hi.others u hu m rest
    · intro u hu
      obtain ⟨m, pre, rest, o, part, h1, h2⟩ := hi.held u hu
      refine ⟨m, pre, rest, o, part, ?_, h2⟩
      by_cases h : u = t
      · subst h; rw [h1] at hpc; cases hpc
      · rw [upd_other _ _ h]; exact h1
    · intro u
      rw [hi.dec u]
      by_cases h : u = t
      · subst h; rw [upd_same, hpc]
      · rw [upd_other _ _ h]
    · intro u m hm
      by_cases h : u = t
      · subst h; rw [upd_same] at hm; cases hm
      · rw [upd_other _ _ h] at hm; exact hi.lev u m hm
    · intro u m hm
      by_cases h : u = t
      · subst h; rw [upd_same] at hm; exact hi.levs u m (by rw [htd]; exact List.mem_cons_of_mem _ hm)
      · rw [upd_other _ _ h] at hm; exact hi.levs u m hm
    · rw [todo_upd]
      exact hP.flag _ _ _ _ _ _ _ hp htd
  · -- a message
    rename_i m r hpc htd
    cases h
    dsimp only
    have hpend : (s.thr t).pc.pending = [] := by rw [hpc]; rfl
    refine ⟨ms, if includes x s.flags m.level then upd dec t (dec t ++ [m]) else dec, ⟨hi.free, ?_, ?_, ?_, ?_, ?_⟩, ?_⟩
    · intro u hu m' rest
      by_cases h : u = t
      · subst h; rw [upd_same]; dsimp only; split <;> exact Pc.noConfusion
      · rw [upd_other _ _ h]; exact hi.others u hu m' rest
    · intro u hu
      obtain ⟨m', pre, rest, o, part, h1, h2⟩ := hi.held u hu
      refine ⟨m', pre, rest, o, part, ?_, h2⟩
      by_cases h : u = t
      · subst h; rw [h1] at hpc; cases hpc
      · rw [upd_other _ _ h]; exact h1
    · intro u
      by_cases h : u = t
      · subst h
        rw [upd_same]
        have := hi.dec u
        rw [hpend, List.append_nil] at this
        split
        · rw [upd_same, this]; rfl
        · rw [this]; simp [Pc.pending]
      · rw [upd_other _ _ h]
        split
        · rw [upd_other _ _ h]; exact hi.dec u
        · exact hi.dec u
    · intro u m' hm
      by_cases h : u = t
      · subst h
        rw [upd_same] at hm
        dsimp only at hm
        split at hm
        · cases List.mem_singleton.1 hm
          exact hi.levs u m (by rw [htd]; exact List.mem_cons_self)
        · cases hm
      · rw [upd_other _ _ h] at hm; exact hi.lev u m' hm
    · intro u m' hm
      by_cases h : u = t
      · subst h; rw [upd_same] at hm; exact hi.levs u m' (by rw [htd]; exact List.mem_cons_of_mem _ hm)
      · rw [upd_other _ _ h] at hm; exact hi.levs u m' hm
    · rw [todo_upd]
      exact hP.log _ _ _ _ _ _ hp htd
  · -- the lock
    rename_i _ m hpc
    split at h
    · rename_i hl
      cases h
      dsimp only
      refine ⟨ms, dec, ⟨fun h => (by cases h), ?_, ?_, ?_, ?_, ?_⟩, ?_⟩
      · intro u hu m' rest
        have h : u ≠ t := fun h => hu (by rw [h])
        rw [upd_other _ _ h]; exact hi.others u (by rw [hl]; exact fun h => nomatch h) m' rest
      · intro u hu
        cases hu
        refine ⟨m, [], m.pieces, s.out, [], by rw [upd_same], rfl, by simp, hi.free hl, ⟨[], rfl, rfl⟩⟩
      · intro u
        rw [hi.dec u]
        by_cases h : u = t
        · subst h; rw [upd_same, hpc]; rfl
        · rw [upd_other _ _ h]
      · intro u m' hm
        by_cases h : u = t
        · subst h
          rw [upd_same] at hm
          exact hi.lev u m' (by rw [hpc]; exact hm)
        · rw [upd_other _ _ h] at hm; exact hi.lev u m' hm
      · intro u m' hm
        by_cases h : u = t
        · subst h; rw [upd_same] at hm; exact hi.levs u m' hm
        · rw [upd_other _ _ h] at hm; exact hi.levs u m' hm
      · rw [todo_same]; exact hp
    · cases h
  · -- a piece
    rename_i m p ps hpc
    have hl : s.lock = some t := by
      by_cases hl : s.lock = some t
      · exact hl
      · exact absurd hpc (hi.others t hl m (p :: ps))
    cases h
    dsimp only
    refine ⟨ms, dec, ⟨fun h => (by rw [hl] at h; cases h), ?_, ?_, ?_, ?_, ?_⟩, ?_⟩
    · intro u hu m' rest
      have h : u ≠ t := fun h => hu (by rw [h]; exact hl)
      rw [upd_other _ _ h]; exact hi.others u hu m' rest
    · intro u hu
      obtain rfl : t = u := by rw [hl] at hu; exact Option.some.inj hu
      obtain ⟨m', pre, rest, o, part, h1, h2, h3, h4, h5⟩ := hi.held t hl
      rw [hpc] at h1
      cases h1
      refine ⟨m, pre ++ [p], ps, o, part ++ [p.put t now], by rw [upd_same], by rw [h2]; simp, ?_, h4, part_snoc h5⟩
      rw [h3, List.append_assoc]
    · intro u
      rw [hi.dec u]
      by_cases h : u = t
      · subst h; rw [upd_same, hpc]; rfl
      · rw [upd_other _ _ h]
    · intro u m' hm
      by_cases h : u = t
      · subst h
        rw [upd_same] at hm
        exact hi.lev u m' (by rw [hpc]; exact hm)
      · rw [upd_other _ _ h] at hm; exact hi.lev u m' hm
    · intro u m' hm
      by_cases h : u = t
      · subst h; rw [upd_same] at hm; exact hi.levs u m' hm
      · rw [upd_other _ _ h] at hm; exact hi.levs u m' hm
    · rw [todo_same]; exact hp
  · -- the end of the critical section
    rename_i m hpc
    have hl : s.lock = some t := by
      by_cases hl : s.lock = some t
      · exact hl
      · exact absurd hpc (hi.others t hl m [])
    obtain ⟨m', pre, rest, o, part, h1, h2, h3, h4, h5⟩ := hi.held t hl
    rw [hpc] at h1
    cases h1
    rw [List.append_nil] at h2
    cases h
    dsimp only
    refine ⟨ms ++ [(t, m)], dec, ⟨fun _ => ?_, ?_, fun u hu => (by cases hu), ?_, ?_, ?_⟩, ?_⟩
    · rw [h3]
      exact .more h4 (part_line (hi.lev t m (by rw [hpc]; exact List.mem_singleton.2 rfl)) (by rw [h2]; exact h5))
    · intro u _ m' rest
      by_cases h : u = t
      · subst h; rw [upd_same]; exact Pc.noConfusion
      · rw [upd_other _ _ h]; exact hi.others u (by rw [hl]; exact fun h' => h (Option.some.inj h').symm) m' rest
    · intro u
      rw [hi.dec u]
      by_cases h : u = t
      · subst h; rw [upd_same, hpc, of_append, of_same]; simp [Pc.pending]
      · rw [upd_other _ _ h, of_append, of_other _ h, List.append_nil]
    · intro u m' hm
      by_cases h : u = t
      · subst h; rw [upd_same] at hm; cases hm
      · rw [upd_other _ _ h] at hm; exact hi.lev u m' hm
    · intro u m' hm
      by_cases h : u = t
      · subst h; rw [upd_same] at hm; exact hi.levs u m' hm
      · rw [upd_other _ _ h] at hm; exact hi.levs u m' hm
    · rw [todo_same]; exact hp

theorem inv_run {x : Excl} {P : Flags → (Nat → List Act) → (Nat → List Msg) → Prop} (hP : Keeps x P) (sched : List (Nat × Nat)) {s s' : St} {ms : List (Nat × Msg)}
    {dec : Nat → List Msg} (hi : Inv s.lock s.out s.thr ms dec) (hp : P s.flags (fun t => (s.thr t).todo) dec) (h : s.run x sched = some s') :
    ∃ ms' dec', Inv s'.lock s'.out s'.thr ms' dec' ∧ P s'.flags (fun t => (s'.thr t).todo) dec' := by
  induction sched generalizing s ms dec with
  | nil => cases h; exact ⟨ms, dec, hi, hp⟩
  | cons a sched ih =>
    rw [St.run] at h
    cases hs : s.step x a.1 a.2 with
    | none => rw [hs] at h; cases h
    | some s1 =>
      rw [hs] at h
      obtain ⟨ms1, dec1, h1, h2⟩ := inv_step hP hi hp hs
      exact ih h1 h2 h

/-- The messages that a list of steps contains. -/
def logs : List Act → List Msg := List.filterMap fun | .log m => some m | .flag _ _ => none

theorem acts_lev (x : Excl) {op : Op} (h : OpOk op) : ∀ m, Act.log m ∈ op.acts x → m.level ≤ 5 := by
  have hf : ∀ l m, Act.log m ∉ flags l := by
    intro l m hm
    obtain ⟨p, _, h⟩ := List.mem_map.1 hm
    cases h
  intro m hm
  cases op with
  | log m' => cases List.mem_singleton.1 hm; exact h
  | set l => exact absurd hm (hf _ _)
  | disable => exact absurd hm (hf _ _)
  | env name v =>
    cases v with
    | none =>
      rcases List.mem_cons.1 hm with h | h
      · cases h; exact (by decide : 2 ≤ 5)
      · exact absurd h (hf _ _)
    | some v =>
      rw [Op.acts] at hm
      split at hm
      · exact absurd hm (hf _ _)
      · rcases List.mem_cons.1 hm with h | h
        · cases h; exact (by decide : 2 ≤ 5)
        · exact absurd h (hf _ _)

theorem inv_init (x : Excl) (progs : Nat → List Op) (hok : ∀ t, ∀ op ∈ progs t, OpOk op) : Inv (St.init x progs).lock (St.init x progs).out (St.init x progs).thr [] (fun _ => []) := by
  refine ⟨fun _ => .nil, fun _ _ _ _ => Pc.noConfusion, fun t h => (by cases h), fun _ => rfl, fun _ m hm => (by cases hm), ?_⟩
  intro t m hm
  obtain ⟨op, h1, h2⟩ := List.mem_flatMap.1 hm
  exact acts_lev x (hok t op h1) m h2

theorem done_dec {s : St} {ms : List (Nat × Msg)} {dec : Nat → List Msg} (hi : Inv s.lock s.out s.thr ms dec) (hd : s.done) : Lines s.out ms ∧ dec = (fun t => of t ms) ∧ (fun t => (s.thr t).todo) = fun _ => [] := by
  refine ⟨hi.free ?_, ?_, ?_⟩
  · cases hl : s.lock with
    | none => rfl
    | some t =>
      obtain ⟨m, _, rest, _, _, h1, _⟩ := hi.held t hl
      rw [hd t] at h1
      cases h1
  · funext t
    rw [hi.dec t, hd t]
    exact List.append_nil _
  · funext t; rw [hd t]

/-- **C66, whole messages.** Whatever the threads do and however they are scheduled: when they have ended, the stream consists of complete messages, and the messages of a thread
are, in their order, among those that its program has asked for. -/
theorem C66_whole (x : Excl) (progs : Nat → List Op) (hok : ∀ t, ∀ op ∈ progs t, OpOk op) (sched : List (Nat × Nat)) (s : St)
    (h : (St.init x progs).run x sched = some s) (hd : s.done) :
    ∃ ms, Lines s.out ms ∧ ∀ t, (of t ms).Sublist (logs ((progs t).flatMap (Op.acts x))) := by
  have hP : Keeps x fun _ td dec => ∀ t, (dec t ++ logs (td t)).Sublist (logs ((progs t).flatMap (Op.acts x))) := by
    constructor
    · intro f td dec t l b r hp htd u
      by_cases hu : u = t
      · subst hu
        rw [upd_same]
        have := hp u
        rw [htd] at this
        exact this
      · rw [upd_other _ _ hu]; exact hp u
    · intro f td dec t m r hp htd u
      by_cases hu : u = t
      · subst hu
        rw [upd_same]
        have := hp u
        rw [htd] at this
        change (dec u ++ m :: logs r).Sublist _ at this
        split
        · rw [upd_same, List.append_assoc]; exact this
        · exact ((List.Sublist.refl _).append (List.sublist_cons_self _ _)).trans this
      · rw [upd_other _ _ hu]
        split
        · rw [upd_other _ _ hu]; exact hp u
        · exact hp u
  obtain ⟨ms, dec, hi, hp⟩ := inv_run hP sched (inv_init x progs hok) (fun t => by exact List.Sublist.refl _) h
  obtain ⟨h1, h2, h3⟩ := done_dec hi hd
  refine ⟨ms, h1, fun t => ?_⟩
  rw [h2, h3] at hp
  simpa [logs] using hp t

/-- The messages of a program of log calls only. -/
def msgsOf : List Op → List Msg := List.filterMap fun | .log m => some m | _ => none

theorem compiled_iff (x : Excl) (l : Nat) : compiled x l = true ↔ ∀ i, i ≤ l → x i = false := by
  rw [compiled, List.all_eq_true]
  constructor
  · intro h i hi
    simpa using h i (List.mem_range.2 (by omega))
  · intro h i hi
    rw [h i (by have := List.mem_range.1 hi; omega)]
    rfl

/-- **C66, levels that do not change.** If no thread sets a level, exactly the messages down to level Info are written (that have not been excluded when compiling). -/
theorem C66_fixed (x : Excl) (progs : Nat → List Op) (hok : ∀ t, ∀ op ∈ progs t, ∃ m, op = .log m ∧ m.level ≤ 5) (sched : List (Nat × Nat)) (s : St)
    (h : (St.init x progs).run x sched = some s) (hd : s.done) :
    ∃ ms, Lines s.out ms ∧ ∀ t, of t ms = (msgsOf (progs t)).filter fun m => decide (Wanted x (some 4) m.level) := by
  have hw : ∀ l, includes x Flags.init l = decide (Wanted x (some 4) l) := by
    intro l
    rw [includes, Flags.init, Bool.eq_iff_iff, Bool.and_eq_true, compiled_iff]
    simp [Wanted, and_comm]
  have hacts : ∀ t, (progs t).flatMap (Op.acts x) = (msgsOf (progs t)).map .log := by
    intro t
    have := hok t
    generalize progs t = l at this
    induction l with
    | nil => rfl
    | cons op r ih =>
      obtain ⟨m, rfl, _⟩ := this op List.mem_cons_self
      rw [List.flatMap_cons, ih (fun o ho => this o (List.mem_cons_of_mem _ ho))]
      rfl
  have hP : Keeps x fun f td dec => f = Flags.init ∧ ∀ t, ∃ ms : List Msg, td t = ms.map .log ∧
      dec t ++ ms.filter (fun m => decide (Wanted x (some 4) m.level)) = (msgsOf (progs t)).filter fun m => decide (Wanted x (some 4) m.level) := by
    constructor
    · rintro f td dec t l b r ⟨_, hp⟩ htd
      obtain ⟨ms, h1, _⟩ := hp t
      rw [htd] at h1
      cases ms <;> cases h1
    · rintro f td dec t m r ⟨rfl, hp⟩ htd
      refine ⟨rfl, fun u => ?_⟩
      by_cases hu : u = t
      · subst hu
        obtain ⟨ms, h1, h2⟩ := hp u
        rw [htd] at h1
        cases ms with
        | nil => cases h1
        | cons m' ms =>
          simp only [List.map_cons, List.cons.injEq, Act.log.injEq] at h1
          obtain ⟨rfl, rfl⟩ := h1
          refine ⟨ms, by rw [upd_same], ?_⟩
          rw [← h2, List.filter_cons, hw]
          by_cases hx : decide (Wanted x (some 4) m.level) = true
          · rw [if_pos hx, if_pos hx, upd_same]; simp
          · rw [if_neg hx, if_neg hx]
      · obtain ⟨ms, h1, h2⟩ := hp u
        refine ⟨ms, by rw [upd_other _ _ hu]; exact h1, ?_⟩
        rw [← h2]
        split
        · rw [upd_other _ _ hu]
        · rfl
  obtain ⟨ms, dec, hi, _, hp⟩ := inv_run hP sched
    (inv_init x progs fun t op ho => (by obtain ⟨m, rfl, hl⟩ := hok t op ho; exact hl)) ⟨rfl, fun t => ⟨_, hacts t, rfl⟩⟩ h
  obtain ⟨h1, h2, h3⟩ := done_dec hi hd
  refine ⟨ms, h1, fun t => ?_⟩
  rw [h3, h2] at hp
  obtain ⟨l, h4, h5⟩ := hp t
  have : l = [] := by simpa using h4.symm
  rw [this] at h5
  simpa using h5

/-! ## One thread that changes levels -/

/-- The messages that the steps of one thread write. -/
def sayActs (x : Excl) (f : Flags) : List Act → List Msg
  | [] => []
  | .flag l b :: r => sayActs x (upd f l b) r
  | .log m :: r => (if includes x f m.level then [m] else []) ++ sayActs x f r

/-- Flags after assignments. -/
def after (f : Flags) (l : List (Nat × Bool)) : Flags := l.foldl (fun f p => upd f p.1 p.2) f

theorem sayActs_flags (x : Excl) (f : Flags) (l : List (Nat × Bool)) (r : List Act) : sayActs x f (flags l ++ r) = sayActs x (after f l) r := by
  induction l generalizing f with
  | nil => rfl
  | cons p l ih => exact ih _

/-- The flags mean a level. -/
def Means (x : Excl) (f : Flags) (cur : Option Nat) : Prop := ∀ l, l ≤ 5 → (includes x f l = true ↔ Wanted x cur l)

theorem after_get (f : Flags) (l : List (Nat × Bool)) (i : Nat) (b : Bool) (h : ∀ p ∈ l, p.1 = i → p.2 = b) :
    after f l i = if i ∈ l.map (·.1) then b else f i := by
  induction l generalizing f with
  | nil => rfl
  | cons p l ih =>
    rw [show after f (p :: l) = after (upd f p.1 p.2) l from rfl, ih _ (fun q hq => h q (List.mem_cons_of_mem _ hq))]
    by_cases hm : i ∈ l.map (·.1)
    · rw [if_pos hm, if_pos (by rw [List.map_cons]; exact List.mem_cons_of_mem _ hm)]
    · rw [if_neg hm]
      by_cases hi : i = p.1
      · subst hi
        rw [upd_same, if_pos (by simp), h p List.mem_cons_self rfl]
      · rw [upd_other _ _ hi, if_neg (by rw [List.map_cons, List.mem_cons, not_or]; exact ⟨hi, hm⟩)]

theorem mem_while {l : Nat} {x : Excl} {i : Nat} (h : ∀ j, j ≤ i → x j = false) (hi : i ≤ l) : i ∈ (List.range (l + 1)).takeWhile fun i => !x i := by
  have hs : List.range (l + 1) = List.range (i + 1) ++ (List.range (l - i)).map (i + 1 + ·) := by
    rw [show l + 1 = (i + 1) + (l - i) by omega, List.range_add]
  rw [hs, List.takeWhile_append_of_pos]
  · exact List.mem_append_left _ (List.mem_range.2 (by omega))
  · intro j hj
    rw [h j (by have := List.mem_range.1 hj; omega)]
    rfl

theorem means_set (x : Excl) (f : Flags) {l : Nat} (hl : l ≤ 5) : Means x (after f (setActs x l)) (some l) := by
  intro i hi
  rw [includes, Bool.and_eq_true, compiled_iff]
  have hw : Wanted x (some l) i ↔ i ≤ l ∧ ∀ j, j ≤ i → x j = false := by simp [Wanted]
  rw [hw]
  by_cases hc : ∀ j, j ≤ i → x j = false
  · by_cases hil : i ≤ l
    · -- set
      have : after f (setActs x l) i = true := by
        rw [after_get _ _ _ true]
        · rw [if_pos]
          rw [setActs, List.map_append]
          refine List.mem_append_left _ ?_
          rw [List.map_map]
          exact List.mem_map.2 ⟨i, mem_while hc hil, rfl⟩
        · intro p hp hpi
          rw [setActs] at hp
          rcases List.mem_append.1 hp with hp | hp
          · obtain ⟨_, _, rfl⟩ := List.mem_map.1 hp; rfl
          · split at hp
            · obtain ⟨k, hk, rfl⟩ := List.mem_map.1 hp
              exfalso
              have := (List.drop_sublist _ _).subset hk
              rw [List.range_eq_range', List.drop_range', List.mem_range'_1] at hk
              simp only at hpi
              omega
            · cases hp
      exact ⟨fun _ => ⟨hil, hc⟩, fun _ => ⟨hc, this⟩⟩
    · -- not set
      have hcl : compiled x l = true := (compiled_iff x l).2 fun j hj => hc j (by omega)
      have : after f (setActs x l) i = false := by
        rw [after_get _ _ _ false]
        · rw [if_pos]
          rw [setActs, if_pos hcl, List.map_append]
          refine List.mem_append_right _ ?_
          rw [List.map_map]
          refine List.mem_map.2 ⟨i, ?_, rfl⟩
          rw [List.range_eq_range', List.drop_range', List.mem_range'_1]
          omega
        · intro p hp hpi
          rw [setActs] at hp
          rcases List.mem_append.1 hp with hp | hp
          · obtain ⟨k, hk, rfl⟩ := List.mem_map.1 hp
            exfalso
            have := List.mem_range.1 ((List.takeWhile_sublist _).subset hk)
            simp only at hpi
            omega
          · rw [if_pos hcl] at hp
            obtain ⟨k, hk, rfl⟩ := List.mem_map.1 hp
            rfl
      constructor
      · rintro ⟨_, h⟩; rw [this] at h; cases h
      · rintro ⟨h, _⟩; exact absurd h hil
  · exact ⟨fun h => absurd h.1 hc, fun h => absurd h.2 hc⟩

theorem means_disable (x : Excl) (f : Flags) : Means x (after f disableActs) none := by
  intro i hi
  have : after f disableActs i = false := by
    rw [after_get _ _ _ false]
    · rw [if_pos]
      rw [disableActs, List.map_map]
      exact List.mem_map.2 ⟨i, List.mem_range.2 (by omega), rfl⟩
    · intro p hp _
      obtain ⟨_, _, rfl⟩ := List.mem_map.1 hp
      rfl
  rw [includes, this]
  simp [Wanted]

theorem means_init (x : Excl) : Means x Flags.init (some 4) := by
  intro i _
  rw [includes, Bool.and_eq_true, compiled_iff]
  simp [Wanted, Flags.init, and_comm]

theorem env_letter (c : Char) : envLevel c = byLetter c ∧ ∀ l, envLevel c = some l → l ≤ 5 := by
  by_cases h : c ∈ ['f', 'F', 'e', 'E', 'w', 'W', 'n', 'N', 'i', 'I', 'd', 'D']
  · have key : ∀ c ∈ ['f', 'F', 'e', 'E', 'w', 'W', 'n', 'N', 'i', 'I', 'd', 'D'], envLevel c = byLetter c ∧ (envLevel c).all (fun l => decide (l ≤ 5)) = true := by decide +kernel
    refine ⟨(key c h).1, fun l hl => ?_⟩
    have := (key c h).2
    rw [hl] at this
    simpa using this
  · have h1 : envLevel c = none := by
      simp only [List.mem_cons, List.not_mem_nil, or_false, not_or] at h
      simp [envLevel, h]
    have h2 : byLetter c = none := by
      rw [byLetter, List.findIdx?_eq_none_iff]
      intro n hn
      have key : ∀ n ∈ names, ∃ a b, n.head? = some a ∧ n.head?.map Char.toLower = some b ∧ a ∈ ['f', 'F', 'e', 'E', 'w', 'W', 'n', 'N', 'i', 'I', 'd', 'D'] ∧
          b ∈ ['f', 'F', 'e', 'E', 'w', 'W', 'n', 'N', 'i', 'I', 'd', 'D'] := by
        intro n hn
        have : ∀ n ∈ names, (n.head?.any fun a => decide (a ∈ ['f', 'F', 'e', 'E', 'w', 'W', 'n', 'N', 'i', 'I', 'd', 'D'])) = true ∧
          ((n.head?.map Char.toLower).any fun a => decide (a ∈ ['f', 'F', 'e', 'E', 'w', 'W', 'n', 'N', 'i', 'I', 'd', 'D'])) = true := by decide +kernel
        obtain ⟨h1, h2⟩ := this n hn
        rw [Option.any_eq_true] at h1 h2
        obtain ⟨a, ha, ha'⟩ := h1
        obtain ⟨b, hb, hb'⟩ := h2
        exact ⟨a, b, ha, hb, of_decide_eq_true ha', of_decide_eq_true hb'⟩
      obtain ⟨a, b, h3, h4, h5, h6⟩ := key n hn
      rw [h4, h3]
      have ha : a ≠ c := fun h' => h (h' ▸ h5)
      have hb : b ≠ c := fun h' => h (h' ▸ h6)
      simp [ha, hb]
    rw [h1, h2]
    exact ⟨rfl, fun l hl => by cases hl⟩

theorem sayActs_say (x : Excl) (ops : List Op) (hok : ∀ op ∈ ops, OpOk op) (f : Flags) (cur : Option Nat) (h : Means x f cur) :
    sayActs x f (ops.flatMap (Op.acts x)) = say x cur ops := by
  induction ops generalizing f cur with
  | nil => rfl
  | cons op r ih =>
    have ih := ih fun o ho => hok o (List.mem_cons_of_mem _ ho)
    have hop := hok op List.mem_cons_self
    have hmsg : ∀ m : Msg, m.level ≤ 5 → (if includes x f m.level = true then [m] else []) = if Wanted x cur m.level then [m] else [] := by
      intro m hm
      by_cases hx : Wanted x cur m.level
      · rw [if_pos hx, if_pos ((h _ hm).2 hx)]
      · rw [if_neg hx, if_neg fun h' => hx ((h _ hm).1 h')]
    rw [List.flatMap_cons]
    cases op with
    | log m =>
      show (if includes x f m.level = true then [m] else []) ++ sayActs x f (r.flatMap (Op.acts x)) = _
      rw [hmsg m hop, ih f cur h]
      rfl
    | set l =>
      rw [Op.acts, sayActs_flags, ih _ _ (means_set x f hop)]
      rfl
    | disable =>
      rw [Op.acts, sayActs_flags, ih _ _ (means_disable x f)]
      rfl
    | env name v =>
      cases v with
      | none =>
        show (if includes x f 2 = true then _ else []) ++ sayActs x f (flags (setActs x 4) ++ _) = _
        rw [sayActs_flags, ih _ _ (means_set x f (by decide))]
        have := hmsg ⟨2, ["No environment variable ".toList, quote name, " set. Using level ".toList, quote "Info".toList, " instead.".toList]⟩ (show 2 ≤ 5 by decide)
        rw [this]
        rfl
      | some v =>
        have hlet : envLevel (v.head?.getD '\x00') = (some v).bind fun s => s.head?.bind byLetter := by
          cases v with
          | nil => rfl
          | cons c v => exact (env_letter c).1
        rw [Op.acts, say, ← hlet]
        cases he : envLevel (v.head?.getD '\x00') with
        | some l =>
          dsimp only
          rw [sayActs_flags, ih _ _ (means_set x f ((env_letter _).2 l he))]
        | none =>
          dsimp only
          show (if includes x f 2 = true then _ else []) ++ sayActs x f (flags (setActs x 4) ++ _) = _
          rw [sayActs_flags, ih _ _ (means_set x f (by decide))]
          have := hmsg ⟨2, ["Environment varible has invalid value ".toList, quote v, ". Using level ".toList, quote "Info".toList, " instead.".toList]⟩ (show 2 ≤ 5 by decide)
          rw [this]

/-- **C66, levels.** A program of one thread: exactly the messages that are wanted at the time are written, in their order. -/
theorem C66_levels (x : Excl) (ops : List Op) (hok : ∀ op ∈ ops, OpOk op) (sched : List (Nat × Nat)) (s : St)
    (h : (St.init x fun t => if t = 0 then ops else []).run x sched = some s) (hd : s.done) :
    ∃ ms, Lines s.out ms ∧ of 0 ms = say x (some 4) ops ∧ ∀ t, t ≠ 0 → of t ms = [] := by
  have hP : Keeps x fun f td dec => (∀ t, t ≠ 0 → td t = [] ∧ dec t = []) ∧ dec 0 ++ sayActs x f (td 0) = say x (some 4) ops := by
    constructor
    · rintro f td dec t l b r ⟨hp, hq⟩ htd
      have ht : t = 0 := by
        by_cases ht : t = 0
        · exact ht
        · rw [(hp t ht).1] at htd; cases htd
      subst ht
      refine ⟨fun u hu => ?_, ?_⟩
      · rw [upd_other _ _ hu]; exact hp u hu
      · rw [upd_same, ← hq, htd]; rfl
    · rintro f td dec t m r ⟨hp, hq⟩ htd
      have ht : t = 0 := by
        by_cases ht : t = 0
        · exact ht
        · rw [(hp t ht).1] at htd; cases htd
      subst ht
      refine ⟨fun u hu => ?_, ?_⟩
      · rw [upd_other _ _ hu]
        refine ⟨(hp u hu).1, ?_⟩
        split
        · rw [upd_other _ _ hu]; exact (hp u hu).2
        · exact (hp u hu).2
      · rw [upd_same, ← hq, htd, sayActs]
        split <;> simp [upd_same]
  obtain ⟨ms, dec, hi, hp⟩ := inv_run hP sched
    (inv_init x (fun t => if t = 0 then ops else []) fun t op ho => (by
      by_cases ht : t = 0
      · rw [if_pos ht] at ho; exact hok op ho
      · rw [if_neg ht] at ho; cases ho))
    ⟨fun t ht => ⟨(by show List.flatMap _ (if t = 0 then ops else []) = []; rw [if_neg ht]; rfl), rfl⟩, (by exact sayActs_say x ops hok _ _ (means_init x))⟩ h
  obtain ⟨h1, h2, h3⟩ := done_dec hi hd
  rw [h2, h3] at hp
  refine ⟨ms, h1, ?_, fun t ht => (hp.1 t ht).2⟩
  simpa [sayActs] using hp.2

/-- **C66, order.** If the clock does not go back, the time stamps in the stream do not. -/
theorem C66_order (x : Excl) (progs : Nat → List Op) (sched : List (Nat × Nat)) (s : St) (h : (St.init x progs).run x sched = some s)
    (hclock : (sched.map (·.2)).Pairwise (· ≤ ·)) : (stamps s.out).Pairwise (· ≤ ·) := by
  have key : ∀ (sched : List (Nat × Nat)) (s s' : St), s.run x sched = some s' → (sched.map (·.2)).Pairwise (· ≤ ·) → (stamps s.out).Pairwise (· ≤ ·) →
      (∀ n ∈ stamps s.out, ∀ a ∈ sched, n ≤ a.2) → (stamps s'.out).Pairwise (· ≤ ·) := by
    intro sched
    induction sched with
    | nil => intro s s' h _ hs _; cases h; exact hs
    | cons a sched ih =>
      intro s s' h hc hs hn
      rw [St.run] at h
      cases h1 : s.step x a.1 a.2 with
      | none => rw [h1] at h; cases h
      | some s1 =>
        rw [h1] at h
        rw [List.map_cons, List.pairwise_cons] at hc
        have hout : s1.out = s.out ∨ ∃ p : Piece, s1.out = s.out ++ [p.put a.1 a.2] := by
          rw [St.step] at h1
          split at h1
          · cases h1
          · cases h1; exact .inl rfl
          · cases h1; exact .inl rfl
          · split at h1
            · cases h1; exact .inl rfl
            · cases h1
          · cases h1; exact .inr ⟨_, rfl⟩
          · cases h1; exact .inl rfl
        have hst : stamps s1.out = stamps s.out ∨ stamps s1.out = stamps s.out ++ [a.2] := by
          rcases hout with h | ⟨p, h⟩
          · rw [h]; exact .inl rfl
          · rw [h]
            cases p
            · left; simp [stamps, Piece.put]
            · right; simp [stamps, Piece.put]
            · left; simp [stamps, Piece.put]
        refine ih s1 s' h hc.2 ?_ ?_
        · rcases hst with h | h
          · rw [h]; exact hs
          · rw [h, List.pairwise_append]
            refine ⟨hs, by simp, ?_⟩
            intro n hn' y hy
            rw [List.mem_singleton.1 hy]
            exact hn n hn' a List.mem_cons_self
        · intro n hn' b hb
          rcases hst with h | h
          · rw [h] at hn'; exact hn n hn' b (List.mem_cons_of_mem _ hb)
          · rw [h] at hn'
            rcases List.mem_append.1 hn' with h' | h'
            · exact hn n h' b (List.mem_cons_of_mem _ hb)
            · rw [List.mem_singleton.1 h']
              exact hc.1 _ (List.mem_map.2 ⟨b, hb, rfl⟩)
  exact key sched _ s h hclock List.Pairwise.nil (fun n hn => by cases hn)

/-- **C66, no deadlock.** As long as not all threads have ended, one of them can go on. -/
theorem C66_progress (x : Excl) (progs : Nat → List Op) (hok : ∀ t, ∀ op ∈ progs t, OpOk op) (sched : List (Nat × Nat)) (s : St)
    (h : (St.init x progs).run x sched = some s) (hd : ¬ s.done) (now : Nat) : ∃ t s', s.step x t now = some s' := by
  have hP : Keeps x fun _ _ _ => True := ⟨fun _ _ _ _ _ _ _ _ _ => trivial, fun _ _ _ _ _ _ _ _ => trivial⟩
  obtain ⟨ms, dec, hi, _⟩ := inv_run hP sched (inv_init x progs hok) trivial h
  cases hl : s.lock with
  | some t =>
    obtain ⟨m, _, rest, _, _, h1, _⟩ := hi.held t hl
    refine ⟨t, ?_⟩
    rw [St.step, h1]
    cases rest <;> exact ⟨_, rfl⟩
  | none =>
    have : ∃ t, s.thr t ≠ ⟨.out, []⟩ := Classical.byContradiction fun hn => hd fun t => Classical.byContradiction fun ht => hn ⟨t, ht⟩
    obtain ⟨t, ht⟩ := this
    refine ⟨t, ?_⟩
    rw [St.step]
    cases hpc : (s.thr t).pc with
    | out =>
      cases htd : (s.thr t).todo with
      | nil => exact absurd (by cases hs : s.thr t; rw [hs] at hpc htd; cases hpc; cases htd; rfl) ht
      | cons a r => cases a <;> exact ⟨_, rfl⟩
    | wait m => rw [hl]; exact ⟨_, rfl⟩
    | inside m rest => exact absurd hpc (hi.others t (by rw [hl]; exact fun h => nomatch h) m rest)

/-! ## A level that changes while another thread writes -/

/-- One thread sets level Fatal, the other one reports an error and then an information. -/
def tornProgs : Nat → List Op
  | 0 => [.set 0]
  | 1 => [.log ⟨1, ["e".toList]⟩, .log ⟨4, ["i".toList]⟩]
  | _ => []

def tornSched : List (Nat × Nat) := [(0, 0), (0, 0), (1, 1), (1, 1), (1, 1)] ++ List.replicate 10 (1, 2) ++ List.replicate 4 (0, 3)

/-- Violation of C66: the level changes from Info to Fatal, but the flags do so one after the other and without the mutex. The error is not written any more, the information that follows it still is:
at every moment one of two levels is to hold, and with neither, nor with a change from the first to the second at any moment, is this the output. -/
theorem C66_violated_torn :
    (∃ s, (St.init (fun _ => false) tornProgs).run (fun _ => false) tornSched = some s ∧ s.done ∧
      Lines s.out [(1, ⟨4, ["i".toList]⟩)]) ∧
    ∀ k : Nat, ((msgsOf (tornProgs 1)).take k).filter (fun m => decide (Wanted (fun _ => false) (some 4) m.level)) ++
      ((msgsOf (tornProgs 1)).drop k).filter (fun m => decide (Wanted (fun _ => false) (some 0) m.level)) ≠ [⟨4, ["i".toList]⟩] := by
  constructor
  · refine ⟨_, rfl, ?_, ?_⟩
    · intro t
      match t with
      | 0 => rfl
      | 1 => rfl
      | _ + 2 => rfl
    · refine Lines.more (o := []) (ms := []) .nil ⟨"\x1B[0;36m".toList, 2, "INFO".toList, rfl, ?_⟩
      decide +kernel
  · intro k
    match k with
    | 0 => decide +kernel
    | 1 => decide +kernel
    | k + 2 =>
      have h1 : (msgsOf (tornProgs 1)).take (k + 2) = msgsOf (tornProgs 1) := List.take_of_length_le (by show 2 ≤ k + 2; omega)
      have h2 : (msgsOf (tornProgs 1)).drop (k + 2) = [] := List.drop_of_length_le (by show 2 ≤ k + 2; omega)
      rw [h1, h2]
      decide +kernel

/-- Non-vacuity: two threads that write at the same time; the second has to wait for the first. -/
example : ∃ s, (St.init (fun _ => false) fun t => if t < 2 then [.log ⟨1, ["e".toList]⟩, .log ⟨5, ["d".toList]⟩] else []).run (fun _ => false)
    ([(0, 0), (1, 0), (0, 1), (0, 1)] ++ List.replicate 9 (0, 2) ++ List.replicate 11 (1, 3) ++ [(0, 4), (1, 4)]) = some s ∧ s.done := by
  refine ⟨_, rfl, fun t => ?_⟩
  match t with
  | 0 => rfl
  | 1 => rfl
  | _ + 2 => rfl

/-- Non-vacuity: levels set in a program. -/
example : say (fun _ => false) (some 4) [.log ⟨5, []⟩, .set 5, .log ⟨5, []⟩, .env "LOG".toList (some "err".toList), .log ⟨2, []⟩, .log ⟨1, []⟩, .disable, .log ⟨0, []⟩] = [⟨5, []⟩, ⟨1, []⟩] := by
  decide +kernel

end Verif.Log
