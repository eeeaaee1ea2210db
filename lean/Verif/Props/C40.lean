import Verif.Model.Conn
/-!
# C40: the connection manager

The specification is the list of definitions in the order in which they are met (`defs`): the well-formed `connection` elements
of the files, each file counted the first time it is met.
-/

set_option autoImplicit false

namespace Verif.Conn

/-- The definition in an element, if all three attributes are there. -/
def defOf (path : Str) : Entry → List Desc
  | ⟨some i, some u, some t⟩ => [⟨i, u, t, path⟩]
  | _ => []

/-- The definitions in a file. -/
def defsOf (f : File) : List Desc := (f.body.getD []).flatMap (defOf f.path)

/-- The files met for the first time, `seen` being those met before. -/
def firstMet (seen : List (Str × Str)) : List Ev → List File
  | [] => []
  | .fail _ :: evs => firstMet seen evs
  | .file f :: evs => if (f.proto, f.path) ∈ seen then firstMet seen evs else f :: firstMet ((f.proto, f.path) :: seen) evs

/-- All definitions in the order in which they are met. -/
def defs (evs : List Ev) : List Desc := (firstMet [] evs).flatMap defsOf

/-- No two definitions of the same id differ in uri or address table. -/
def Consistent (ds : List Desc) : Prop := ∀ a ∈ ds, ∀ b ∈ ds, a.id = b.id → a.uri = b.uri ∧ a.table = b.table

/-- What the files `files` present to the constructor. -/
def met (w : World) (files : List (Str × Str)) : List Ev := files.flatMap (openFile w)

/-- The definition of `i` that was met first. -/
def firstDef (i : Str) (ds : List Desc) : Option Desc := ds.find? fun d => decide (d.id = i)

/-! ## The invariant -/

theorem put_find (d : Desc) (xs : List Desc) (h : firstDef d.id xs = none) (i : Str) :
    firstDef i (put d xs) = if d.id = i then some d else firstDef i xs := by
  induction xs with
  | nil => simp [put, firstDef, List.find?_cons]; split <;> simp_all
  | cons x xs ih =>
    simp only [firstDef, List.find?_cons] at h
    have hx : x.id ≠ d.id := by
      intro e; simp [e] at h
    have h' : firstDef d.id xs = none := by simpa [hx, firstDef] using h
    simp only [put]
    split
    · simp only [firstDef, List.find?_cons]
      by_cases e : d.id = i
      · simp [e]
      · simp [e]
    · have := ih h'
      simp only [firstDef, List.find?_cons] at this ⊢
      by_cases e : d.id = i
      · subst e
        simp only [hx, decide_false]
        simpa using this
      · by_cases e2 : x.id = i
        · simp [e, e2]
        · simp only [e2, decide_false, e, if_false] at this ⊢
          exact this

theorem mem_put {d a : Desc} {xs : List Desc} : a ∈ put d xs ↔ a = d ∨ a ∈ xs := by
  induction xs with
  | nil => simp [put]
  | cons x xs ih =>
    simp only [put]
    split
    · simp
    · simp only [List.mem_cons, ih]
      grind

/-- Sorted by id, without repetitions. -/
def Sorted (ds : List Desc) : Prop := ds.Pairwise fun a b => a.id < b.id

theorem put_sorted {d : Desc} {xs : List Desc} (h : firstDef d.id xs = none) (hs : Sorted xs) : Sorted (put d xs) := by
  induction xs with
  | nil => simp [put, Sorted]
  | cons x xs ih =>
    simp only [firstDef, List.find?_cons] at h
    have hx : x.id ≠ d.id := by
      intro e; simp [e] at h
    have h' : firstDef d.id xs = none := by simpa [hx, firstDef] using h
    have hs' := List.pairwise_cons.mp hs
    simp only [put]
    split
    · rename_i hlt
      refine List.pairwise_cons.mpr ⟨?_, hs⟩
      intro a ha
      rcases List.mem_cons.mp ha with rfl | ha
      · exact hlt
      · exact List.lt_trans hlt (hs'.1 a ha)
    · rename_i hlt
      refine List.pairwise_cons.mpr ⟨?_, ih h' hs'.2⟩
      intro a ha
      rcases mem_put.mp ha with rfl | ha
      · have hle : x.id ≤ a.id := List.not_lt.mp hlt
        rcases List.le_iff_lt_or_eq.mp hle with h | h
        · exact h
        · exact absurd h hx
      · exact hs'.1 a ha

/-- The manager knows exactly the first definitions among `ds`, and these do not contradict each other. -/
structure Knows (m : Mgr) (ds : List Desc) : Prop where
  find : ∀ i, m.find i = firstDef i ds
  cons : Consistent ds
  sorted : Sorted m.descs

theorem firstDef_some {i : Str} {ds : List Desc} {d : Desc} (h : firstDef i ds = some d) : d ∈ ds ∧ d.id = i :=
  ⟨List.mem_of_find?_eq_some h, by simpa using List.find?_some h⟩

theorem firstDef_none {i : Str} {ds : List Desc} : firstDef i ds = none ↔ ∀ d ∈ ds, d.id ≠ i := by
  simp [firstDef, List.find?_eq_none]

theorem firstDef_append (i : Str) (a b : List Desc) : firstDef i (a ++ b) = (firstDef i a).or (firstDef i b) := by
  simp [firstDef, List.find?_append]

theorem Knows.entry {m : Mgr} {ds : List Desc} (h : Knows m ds) (f : File) (e : Entry) :
    match m.entry f e with
    | .ok m' => Knows m' (ds ++ defOf f.path e) ∧ m'.opened = m.opened
    | .error x => x = .duplicatedUID ∧ ¬ Consistent (ds ++ defOf f.path e) := by
  obtain ⟨i, u, t⟩ := e
  rcases i with _ | i
  · simpa [Mgr.entry, defOf] using h
  rcases u with _ | u
  · simpa [Mgr.entry, defOf] using h
  rcases t with _ | t
  · simpa [Mgr.entry, defOf] using h
  simp only [Mgr.entry, defOf]
  cases hf : m.find i with
  | none =>
    rw [h.find] at hf
    refine ⟨⟨?_, ?_, ?_⟩, rfl⟩
    · intro j
      show firstDef j (put _ m.descs) = _
      rw [put_find _ _ (by rw [← h.find] at hf; exact hf), firstDef_append]
      have hj := h.find j
      simp only [Mgr.find] at hj
      simp only [firstDef] at hj hf ⊢
      rw [hj]
      by_cases e : i = j
      · subst e
        simp [hf]
      · simp [e]
    · have hn := firstDef_none.mp hf
      intro a ha b hb hab
      simp only [List.mem_append, List.mem_singleton] at ha hb
      rcases ha with ha | rfl <;> rcases hb with hb | rfl
      · exact h.cons a ha b hb hab
      · exact absurd hab (hn a ha)
      · exact absurd hab.symm (hn b hb)
      · exact ⟨rfl, rfl⟩
    · exact put_sorted (by rw [← h.find] at hf; exact hf) h.sorted
  | some d =>
    rw [h.find] at hf
    obtain ⟨hd, hdi⟩ := firstDef_some hf
    simp only
    split
    · rename_i heq
      split at heq
      · cases heq
        rename_i hut
        refine ⟨⟨?_, ?_, h.sorted⟩, rfl⟩
        · intro j
          rw [h.find, firstDef_append]
          by_cases e : i = j
          · subst e; simp [hf]
          · simp [firstDef, e]
        · intro a ha b hb hab
          simp only [List.mem_append, List.mem_singleton] at ha hb
          rcases ha with ha | rfl <;> rcases hb with hb | rfl
          · exact h.cons a ha b hb hab
          · obtain ⟨h1, h2⟩ := h.cons a ha d hd (by rw [hab, hdi])
            exact ⟨h1.trans hut.1, h2.trans hut.2⟩
          · obtain ⟨h1, h2⟩ := h.cons d hd b hb (by rw [hdi]; exact hab)
            exact ⟨hut.1.symm.trans h1, hut.2.symm.trans h2⟩
          · exact ⟨rfl, rfl⟩
      · cases heq
    · rename_i heq
      split at heq
      · cases heq
      · rename_i hut
        cases heq
        refine ⟨rfl, fun hc => hut ?_⟩
        exact hc d (by simp [hd]) ⟨i, u, t, f.path⟩ (by simp) hdi

theorem Consistent.left {a b : List Desc} (h : Consistent (a ++ b)) : Consistent a :=
  fun x hx y hy => h x (by simp [hx]) y (by simp [hy])

theorem Knows.entries {m : Mgr} {ds : List Desc} (h : Knows m ds) (f : File) (es : List Entry) :
    match m.entries f es with
    | .ok m' => Knows m' (ds ++ es.flatMap (defOf f.path)) ∧ m'.opened = m.opened
    | .error x => x = .duplicatedUID ∧ ¬ Consistent (ds ++ es.flatMap (defOf f.path)) := by
  induction es generalizing m ds with
  | nil => simpa [Mgr.entries] using h
  | cons e es ih =>
    simp only [Mgr.entries, List.flatMap_cons]
    have he := h.entry f e
    cases hm : m.entry f e with
    | error x =>
      simp only [hm] at he ⊢
      exact ⟨he.1, fun hc => he.2 (by rw [← List.append_assoc] at hc; exact hc.left)⟩
    | ok m' =>
      simp only [hm] at he ⊢
      have := ih he.1
      cases hm' : m'.entries f es with
      | error x => simp only [hm', List.append_assoc] at this ⊢; exact this
      | ok m'' => simp only [hm', List.append_assoc] at this ⊢; exact ⟨this.1, this.2.trans he.2⟩

/-- Protocols of files are `file` or `http`. -/
def Proper (evs : List Ev) : Prop := ∀ f, Ev.file f ∈ evs → f.proto = "file".toList ∨ f.proto = "http".toList

/-- The names in `mPreviouslyOpenedFiles` are those of the files `seen`. -/
def Names (opened : List Str) (seen : List (Str × Str)) : Prop :=
  opened = seen.map (fun x => x.1 ++ x.2) ∧ ∀ x ∈ seen, x.1 = "file".toList ∨ x.1 = "http".toList

theorem Names.mem {opened : List Str} {seen : List (Str × Str)} (h : Names opened seen) {p q : Str}
    (hp : p = "file".toList ∨ p = "http".toList) : p ++ q ∈ opened ↔ (p, q) ∈ seen := by
  rw [h.1, List.mem_map]
  constructor
  · rintro ⟨⟨p', q'⟩, hm, he⟩
    have := h.2 _ hm
    simp only at this he
    rcases hp with rfl | rfl <;> rcases this with rfl | rfl <;> simp at he <;> subst he <;> exact hm
  · intro hm
    exact ⟨(p, q), hm, rfl⟩

theorem Knows.steps {m : Mgr} {ds : List Desc} {seen : List (Str × Str)} (h : Knows m ds) (hn : Names m.opened seen)
    (evs : List Ev) (hp : Proper evs) :
    match m.steps evs with
    | .ok m' => Knows m' (ds ++ (firstMet seen evs).flatMap defsOf) ∧ ∀ e, Ev.fail e ∉ evs
    | .error x => (x = .duplicatedUID ∧ ¬ Consistent (ds ++ (firstMet seen evs).flatMap defsOf)) ∨ Ev.fail x ∈ evs := by
  induction evs generalizing m ds seen with
  | nil => simpa [Mgr.steps, firstMet] using h
  | cons ev evs ih =>
    have hp' : Proper evs := fun f hf => hp f (List.mem_cons_of_mem _ hf)
    cases ev with
    | fail e => simp [Mgr.steps]
    | file f =>
      simp only [Mgr.steps]
      have hmem := hn.mem (q := f.path) (hp f (by simp))
      by_cases hs : (f.proto, f.path) ∈ seen
      · have : m.callback f = .ok m := by simp [Mgr.callback, hmem.mpr hs]
        rw [this]
        have := ih h hn hp'
        simp only [firstMet, hs, if_true]
        cases hm : m.steps evs with
        | ok m' => simp only [hm] at this ⊢; exact ⟨this.1, by simpa using this.2⟩
        | error x => simp only [hm] at this ⊢; simpa using this
      · have hcb : m.callback f = Mgr.entries { m with opened := (f.proto ++ f.path) :: m.opened } f (f.body.getD []) := by
          simp only [Mgr.callback, hmem, hs, if_false]
          cases f.body <;> simp [Mgr.entries]
        have h1 : Knows { m with opened := (f.proto ++ f.path) :: m.opened } ds := ⟨h.find, h.cons, h.sorted⟩
        have h2 := h1.entries f (f.body.getD [])
        rw [hcb]
        simp only [firstMet, hs, if_false, List.flatMap_cons]
        cases hm : Mgr.entries { m with opened := (f.proto ++ f.path) :: m.opened } f (f.body.getD []) with
        | error x =>
          simp only [hm] at h2 ⊢
          exact .inl ⟨h2.1, fun hc => h2.2 (by rw [← List.append_assoc] at hc; exact hc.left)⟩
        | ok m' =>
          simp only [hm] at h2 ⊢
          have hn' : Names m'.opened ((f.proto, f.path) :: seen) := by
            refine ⟨by rw [h2.2]; simp [hn.1], ?_⟩
            intro x hx
            rcases List.mem_cons.mp hx with rfl | hx
            · exact hp f (by simp)
            · exact hn.2 x hx
          have := ih h2.1 hn' hp'
          cases hm' : m'.steps evs with
          | ok m'' =>
            simp only [hm', List.append_assoc, defsOf] at this ⊢
            exact ⟨this.1, by simpa using this.2⟩
          | error x => simp only [hm', List.append_assoc, defsOf] at this ⊢; simpa using this

theorem openFile_proper (w : World) (files : List (Str × Str)) : Proper (met w files) := by
  intro f hf
  obtain ⟨x, _, hx⟩ := List.mem_flatMap.mp hf
  simp only [openFile] at hx
  split at hx
  · split at hx
    · simp at hx
    · simp at hx
    · obtain ⟨p, _, hp⟩ := List.mem_map.mp hx
      split at hp
      · cases hp
      · cases hp; exact .inl rfl
  · split at hx
    · split at hx
      · simp at hx
      · simp at hx; subst hx; exact .inr rfl
    · simp at hx

theorem construct_spec (w : World) (files : List (Str × Str)) :
    match construct w files with
    | .ok m => Knows m (defs (met w files)) ∧ ∀ e, Ev.fail e ∉ met w files
    | .error x => (x = .duplicatedUID ∧ ¬ Consistent (defs (met w files))) ∨ Ev.fail x ∈ met w files := by
  have h0 : Knows ⟨[], []⟩ [] := ⟨fun i => rfl, by intro a ha; simp at ha, List.Pairwise.nil⟩
  have := h0.steps (seen := []) ⟨rfl, by simp⟩ (met w files) (openFile_proper w files)
  simpa [construct, met, defs] using this

/-! ## The property -/

/-- C40, which lists are accepted: the constructor succeeds exactly if every file can be opened and no id is defined twice with
a different uri or address table. -/
theorem C40_accepts (w : World) (files : List (Str × Str)) :
    (∃ m, construct w files = .ok m) ↔ (∀ e, Ev.fail e ∉ met w files) ∧ Consistent (defs (met w files)) := by
  have := construct_spec w files
  cases hc : construct w files with
  | ok m => simp only [hc] at this; simp only [Except.ok.injEq, exists_eq', true_iff]; exact ⟨this.2, this.1.cons⟩
  | error x =>
    simp only [hc] at this
    simp only [reduceCtorEq, exists_false, false_iff]
    rintro ⟨h1, h2⟩
    rcases this with h | h
    · exact h.2 h2
    · exact h1 x h

/-- C40, the exception: if every file can be opened, a contradiction between two definitions is reported as `DuplicatedUID`, and
this is the only exception. -/
theorem C40_throws (w : World) (files : List (Str × Str)) (ho : ∀ e, Ev.fail e ∉ met w files) :
    ¬ Consistent (defs (met w files)) ↔ construct w files = .error .duplicatedUID := by
  have := construct_spec w files
  cases hc : construct w files with
  | ok m => simp only [hc] at this; simp [this.1.cons]
  | error x =>
    simp only [hc] at this
    rcases this with ⟨rfl, h⟩ | h
    · simp [h]
    · exact absurd h (ho x)

/-- C40, first definition: in every manager that is constructed, an id refers to the first of its definitions (and to the file
in which that one was met); ids without definition are unknown. -/
theorem C40_first (w : World) (files : List (Str × Str)) (m : Mgr) (h : construct w files = .ok m) (i : Str) :
    m.find i = firstDef i (defs (met w files)) := by
  have := construct_spec w files
  simp only [h] at this
  exact this.1.find i

/-- C40, `getDevice`: the node tree and the client are made from the first definition of the id. -/
theorem C40_getDevice {T C : Type} (w : World) (files : List (Str × Str)) (m : Mgr) (h : construct w files = .ok m)
    (tree : Str → Str → Except Exc T) (client : Str → Str → Except Exc C) (i : Str) (c : C) (t : T) :
    m.getDevice tree client i = .ok (c, t) ↔
      ∃ d, firstDef i (defs (met w files)) = some d ∧ tree d.table d.file = .ok t ∧ client i d.uri = .ok c := by
  simp only [Mgr.getDevice, C40_first w files m h]
  cases hf : firstDef i (defs (met w files)) with
  | none => simp
  | some d =>
    have hi := (firstDef_some hf).2
    subst hi
    simp only [Option.some.injEq, exists_eq_left']
    cases tree d.table d.file with
    | error x => simp
    | ok t' =>
      cases client d.id d.uri with
      | error x => simp
      | ok c' => simp [and_comm]

/-- C40, `getDevices`: the ids that are defined, each once, in ascending order. -/
theorem C40_getDevices (w : World) (files : List (Str × Str)) (m : Mgr) (h : construct w files = .ok m) :
    m.getDevices.Pairwise (· < ·) ∧ ∀ i, i ∈ m.getDevices ↔ ∃ d ∈ defs (met w files), d.id = i := by
  have hk := construct_spec w files
  simp only [h] at hk
  refine ⟨List.pairwise_map.mpr hk.1.sorted, ?_⟩
  intro i
  have := hk.1.find i
  simp only [Mgr.getDevices, List.mem_map]
  constructor
  · rintro ⟨d, hd, rfl⟩
    cases hf : firstDef d.id (defs (met w files)) with
    | none =>
      rw [hf] at this
      exact absurd rfl (firstDef_none.mp this d hd)
    | some d' => exact ⟨d', firstDef_some hf⟩
  · rintro ⟨d, hd, rfl⟩
    cases hf : m.find d.id with
    | none => rw [hf] at this; exact absurd rfl (firstDef_none.mp this.symm d hd)
    | some d' => exact ⟨d', firstDef_some hf⟩

/-! ## Files given twice, repeated definitions -/

/-- C40, read once: a file with the protocol and path of one met before has no effect at all, whatever it contains by then. -/
theorem C40_read_once (m : Mgr) (f f' : File) (hp : f'.proto = f.proto) (hq : f'.path = f.path) (a b c : List Ev) :
    m.steps (a ++ .file f :: b ++ .file f' :: c) = m.steps (a ++ .file f :: b ++ c) := by
  have opened_entries : ∀ (es : List Entry) (m m' : Mgr) (g : File), m.entries g es = .ok m' → m'.opened = m.opened := by
    intro es
    induction es with
    | nil => intro m m' g h; simp [Mgr.entries] at h; rw [h]
    | cons e es ih =>
      intro m m' g h
      simp only [Mgr.entries] at h
      cases hm : m.entry g e with
      | error x => simp [hm] at h
      | ok m1 =>
        simp only [hm] at h
        rw [ih m1 m' g h]
        simp only [Mgr.entry] at hm
        split at hm
        · split at hm
          · cases hm; rfl
          · split at hm
            · cases hm; rfl
            · cases hm
        · cases hm; rfl
  have opened_cb : ∀ (m m' : Mgr) (g : File), m.callback g = .ok m' →
      g.proto ++ g.path ∈ m'.opened ∧ ∀ x ∈ m.opened, x ∈ m'.opened := by
    intro m m' g h
    simp only [Mgr.callback] at h
    split at h
    · cases h; exact ⟨by assumption, fun x hx => hx⟩
    · split at h
      · cases h; exact ⟨by simp, fun x hx => by simp [hx]⟩
      · rw [opened_entries _ _ _ _ h]; exact ⟨by simp, fun x hx => by simp [hx]⟩
  have later : ∀ (b : List Ev) (m : Mgr), f.proto ++ f.path ∈ m.opened →
      m.steps (b ++ .file f' :: c) = m.steps (b ++ c) := by
    intro b
    induction b with
    | nil => intro m hs; simp [Mgr.steps, Mgr.callback, hp, hq, hs]
    | cons e b ih =>
      intro m hs
      cases e with
      | fail x => rfl
      | file g =>
        simp only [List.cons_append, Mgr.steps]
        cases hc : m.callback g with
        | error x => rfl
        | ok m' => exact ih m' ((opened_cb m m' g hc).2 _ hs)
  induction a generalizing m with
  | nil =>
    simp only [List.nil_append, List.cons_append, Mgr.steps]
    cases hc : m.callback f with
    | error x => rfl
    | ok m' => exact later b m' (opened_cb m m' f hc).1
  | cons e a ih =>
    cases e with
    | fail x => rfl
    | file g =>
      simp only [List.cons_append, Mgr.steps] at ih ⊢
      cases hc : m.callback g with
      | error x => rfl
      | ok m' => exact ih m'

/-- C40, the same for a file named twice in the list given to the constructor. -/
theorem C40_twice (w : World) (a b c : List (Str × Str)) (p : Str) (body : Option (List Entry))
    (hx : w.expand p = some [p]) (hr : w.read p = some body) :
    construct w (a ++ ("file".toList, p) :: b ++ ("file".toList, p) :: c) = construct w (a ++ ("file".toList, p) :: b ++ c) := by
  have ho : openFile w ("file".toList, p) = [.file ⟨"file".toList, p, body⟩] := by
    simp [openFile, hx, hr]
  have := C40_read_once ⟨[], []⟩ ⟨"file".toList, p, body⟩ ⟨"file".toList, p, body⟩ rfl rfl
    (a.flatMap (openFile w)) (b.flatMap (openFile w)) (c.flatMap (openFile w))
  simp only [construct, List.flatMap_append, List.flatMap_cons, ho, List.append_assoc, List.cons_append, List.nil_append] at this ⊢
  exact this

/-- What is met decides everything: two worlds and lists with the same definitions in the same order, in which all files can be
opened, give managers that answer alike (or both throw). A repeated identical definition therefore is ignored, cf. `C40_repeat`. -/
theorem C40_defs (w w' : World) (l l' : List (Str × Str)) (ho : ∀ e, Ev.fail e ∉ met w l) (ho' : ∀ e, Ev.fail e ∉ met w' l')
    (hc : Consistent (defs (met w l)) ↔ Consistent (defs (met w' l')))
    (hf : ∀ i, firstDef i (defs (met w l)) = firstDef i (defs (met w' l'))) :
    (construct w l = .error .duplicatedUID ∧ construct w' l' = .error .duplicatedUID) ∨
    ∃ m m', construct w l = .ok m ∧ construct w' l' = .ok m' ∧ ∀ i, m.find i = m'.find i := by
  by_cases h : Consistent (defs (met w l))
  · obtain ⟨m, hm⟩ := (C40_accepts w l).mpr ⟨ho, h⟩
    obtain ⟨m', hm'⟩ := (C40_accepts w' l').mpr ⟨ho', hc.mp h⟩
    exact .inr ⟨m, m', hm, hm', fun i => by rw [C40_first w l m hm, C40_first w' l' m' hm', hf]⟩
  · exact .inl ⟨(C40_throws w l ho).mp h, (C40_throws w' l' ho').mp fun h' => h (hc.mpr h')⟩

/-- C40, a repeated identical definition: in a list of elements the loop gives the same result with and without an element that
repeats, with the same uri and address table, a definition met before. -/
theorem C40_repeat (m : Mgr) (ds : List Desc) (hk : Knows m ds) (f : File) (i u t : Str) (es es' : List Entry)
    (h : ∃ d ∈ ds ++ es.flatMap (defOf f.path), d.id = i ∧ d.uri = u ∧ d.table = t) :
    m.entries f (es ++ ⟨some i, some u, some t⟩ :: es') = m.entries f (es ++ es') := by
  induction es generalizing m ds with
  | nil =>
    obtain ⟨d, hd, hi, hu, ht⟩ := h
    simp only [List.flatMap_nil, List.append_nil] at hd
    have : m.entry f ⟨some i, some u, some t⟩ = .ok m := by
      simp only [Mgr.entry]
      cases hf : m.find i with
      | none => rw [hk.find] at hf; exact absurd hi (firstDef_none.mp hf d hd)
      | some d' =>
        rw [hk.find] at hf
        obtain ⟨h1, h2⟩ := firstDef_some hf
        obtain ⟨h3, h4⟩ := hk.cons d' h1 d hd (by rw [h2, hi])
        simp [h3, h4, hu, ht]
    simp [Mgr.entries, this]
  | cons e es ih =>
    simp only [List.cons_append, Mgr.entries]
    have he := hk.entry f e
    cases hm : m.entry f e with
    | error x => rfl
    | ok m' =>
      simp only [hm] at he
      exact ih m' _ he.1 (by simpa [List.append_assoc] using h)

/-! ## Independence of other ids -/

/-- Keep only the elements with id `i`. -/
def World.only (w : World) (i : Str) : World where
  expand := w.expand
  read p := (w.read p).map fun b => b.map fun es => es.filter fun e => decide (e.id = some i)
  http p := (w.http p).map fun b => b.map fun es => es.filter fun e => decide (e.id = some i)

/-- The same on what is met. -/
def Ev.only (i : Str) : Ev → Ev
  | .fail e => .fail e
  | .file f => .file { f with body := f.body.map fun es => es.filter fun e => decide (e.id = some i) }

theorem openFile_only (w : World) (i : Str) (x : Str × Str) : openFile (w.only i) x = (openFile w x).map (Ev.only i) := by
  simp only [openFile, World.only]
  split
  · cases hx : w.expand x.2 with
    | none => simp [Ev.only]
    | some ps =>
      cases ps with
      | nil => simp [Ev.only]
      | cons p ps =>
        simp only [List.map_map]
        apply List.map_congr_left
        intro q _
        simp only [Function.comp]
        cases w.read q <;> simp [Ev.only]
  · split
    · cases w.http x.2 <;> simp [Ev.only]
    · simp [Ev.only]

theorem met_only (w : World) (i : Str) (files : List (Str × Str)) : met (w.only i) files = (met w files).map (Ev.only i) := by
  induction files with
  | nil => rfl
  | cons x xs ih => simp only [met, List.flatMap_cons, List.map_append] at ih ⊢; rw [ih, openFile_only]

theorem defOf_only (path i : Str) (es : List Entry) :
    (es.filter fun e => decide (e.id = some i)).flatMap (defOf path) = (es.flatMap (defOf path)).filter fun d => decide (d.id = i) := by
  induction es with
  | nil => rfl
  | cons e es ih =>
    simp only [List.flatMap_cons, List.filter_append, List.filter_cons, ← ih]
    obtain ⟨j, u, t⟩ := e
    by_cases h : j = some i
    · subst h
      simp only [decide_true, if_true, List.flatMap_cons]
      rcases u with _ | u <;> rcases t with _ | t <;> simp [defOf]
    · simp only [h, decide_false, Bool.false_eq_true, if_false]
      rcases j with _ | j <;> rcases u with _ | u <;> rcases t with _ | t <;> simp [defOf]
      simpa using h

theorem firstMet_only (i : Str) (seen : List (Str × Str)) (evs : List Ev) :
    (firstMet seen (evs.map (Ev.only i))).flatMap defsOf = ((firstMet seen evs).flatMap defsOf).filter fun d => decide (d.id = i) := by
  induction evs generalizing seen with
  | nil => rfl
  | cons e evs ih =>
    cases e with
    | fail x => simp only [List.map_cons, Ev.only, firstMet]; exact ih seen
    | file f =>
      simp only [List.map_cons, Ev.only, firstMet]
      split
      · exact ih seen
      · simp only [List.flatMap_cons, List.filter_append, ih]
        congr 1
        simp only [defsOf]
        cases f.body with
        | none => rfl
        | some es => exact defOf_only f.path i es

theorem defs_only (w : World) (i : Str) (files : List (Str × Str)) :
    defs (met (w.only i) files) = (defs (met w files)).filter fun d => decide (d.id = i) := by
  rw [met_only]; exact firstMet_only i [] _

theorem fail_only (w : World) (i : Str) (files : List (Str × Str)) (e : Exc) :
    Ev.fail e ∈ met (w.only i) files ↔ Ev.fail e ∈ met w files := by
  rw [met_only, List.mem_map]
  constructor
  · rintro ⟨ev, hm, he⟩
    cases ev with
    | fail x => simp [Ev.only] at he; subst he; exact hm
    | file f => simp [Ev.only] at he
  · intro h; exact ⟨_, h, rfl⟩

/-- C40, other ids do not matter for what an id refers to: two worlds that agree on the elements with id `i` give managers that
agree on `i`. -/
theorem C40_independent (w w' : World) (files : List (Str × Str)) (i : Str) (hw : w.only i = w'.only i) (m m' : Mgr)
    (h : construct w files = .ok m) (h' : construct w' files = .ok m') : m.find i = m'.find i := by
  have key : ∀ w : World, firstDef i (defs (met w files)) = firstDef i (defs (met (w.only i) files)) := by
    intro w
    rw [defs_only]
    simp only [firstDef, List.find?_filter]
    congr 1
    funext d
    simp
  rw [C40_first w files m h, C40_first w' files m' h', key w, key w', hw]

/-- C40, other ids do not matter for acceptance: construction succeeds exactly if it succeeds for each id alone. -/
theorem C40_separate (w : World) (files : List (Str × Str)) :
    (∃ m, construct w files = .ok m) ↔ ∀ i, ∃ m, construct (w.only i) files = .ok m := by
  simp only [C40_accepts, fail_only, defs_only]
  constructor
  · rintro ⟨h1, h2⟩ i
    refine ⟨h1, fun a ha b hb => h2 a (List.mem_filter.mp ha).1 b (List.mem_filter.mp hb).1⟩
  · intro h
    refine ⟨(h []).1, fun a ha b hb hab => (h a.id).2 a ?_ b ?_ hab⟩
    · simp [ha]
    · simp [hb, hab]

/-! ## The address table of a repeated definition -/

/-- The directory of a path. -/
def dirOf (p : Str) : Str := (p.reverse.dropWhile (· ≠ '/')).reverse

/-- The file that an address table `file://name` in a connection file denotes: relative names are taken from the directory of
the connection file (NodeTreeBuilder.cpp `getNodeTree` with `aPath.parent_path()`). -/
def denotes (table file : Str) : Str :=
  let name := table.drop 7
  if name.head? = some '/' then name else dirOf file ++ name

def relWorld : World where
  expand p := some [p]
  read p :=
    if p = "/a/c.xml".toList ∨ p = "/b/c.xml".toList then
      some (some [⟨some "dev".toList, some "ipbusudp-2.0://h:1".toList, some "file://t.xml".toList⟩])
    else none
  http _ := none

/-- C40 violation: two connection files in different directories define the same id with the same uri and the address table
`file://t.xml`. These are two different files, but the second definition is taken for a repetition: construction succeeds and
the id refers to the table in the first directory, whichever is given first. -/
theorem C40_violated_relative :
    ∃ m, construct relWorld [("file".toList, "/a/c.xml".toList), ("file".toList, "/b/c.xml".toList)] = .ok m ∧
      (∃ a ∈ defs (met relWorld [("file".toList, "/a/c.xml".toList), ("file".toList, "/b/c.xml".toList)]),
        ∃ b ∈ defs (met relWorld [("file".toList, "/a/c.xml".toList), ("file".toList, "/b/c.xml".toList)]),
          a.id = b.id ∧ denotes a.table a.file = "/a/t.xml".toList ∧ denotes b.table b.file = "/b/t.xml".toList) ∧
      m.find "dev".toList = some ⟨"dev".toList, "ipbusudp-2.0://h:1".toList, "file://t.xml".toList, "/a/c.xml".toList⟩ := by
  refine ⟨_, rfl, ⟨_, List.mem_cons_self .., _, List.mem_cons_of_mem _ (List.mem_cons_self ..), ?_⟩, ?_⟩
  · decide +kernel
  · decide +kernel

/-! ## The hypotheses can be met -/

def demoWorld : World where
  expand p := if p = "*".toList then some ["/x".toList, "/y".toList] else if p = "none".toList then some [] else some [p]
  read p :=
    if p = "/x".toList then
      some (some [⟨some "b".toList, some "u1".toList, some "t1".toList⟩, ⟨none, some "u".toList, some "t".toList⟩])
    else if p = "/y".toList then
      some (some [⟨some "a".toList, some "u2".toList, some "t2".toList⟩, ⟨some "b".toList, some "u1".toList, some "t1".toList⟩])
    else if p = "/z".toList then some (some [⟨some "a".toList, some "u3".toList, some "t2".toList⟩])
    else some none
  http _ := none

/-- Two files by a glob expression, one of them given again: two devices, `b` from the first file although the second repeats it. -/
example : construct demoWorld [("file".toList, "*".toList), ("file".toList, "/x".toList), ("file".toList, "/bad".toList)] =
    .ok ⟨[⟨"a".toList, "u2".toList, "t2".toList, "/y".toList⟩, ⟨"b".toList, "u1".toList, "t1".toList, "/x".toList⟩],
      ["file/bad".toList, "file/y".toList, "file/x".toList]⟩ := rfl

example : construct demoWorld [("file".toList, "*".toList), ("file".toList, "/z".toList)] = .error .duplicatedUID := rfl

example : ¬ Consistent (defs (met demoWorld [("file".toList, "*".toList), ("file".toList, "/z".toList)])) :=
  fun h => by
    have := h ⟨"a".toList, "u2".toList, "t2".toList, "/y".toList⟩ (by decide +kernel)
      ⟨"a".toList, "u3".toList, "t2".toList, "/z".toList⟩ (by decide +kernel) rfl
    exact absurd this (by decide +kernel)

example : construct demoWorld [("file".toList, "none".toList)] = .error .fileNotFound := rfl

/-- `demoWorld` without the elements of `b` agrees with it on `a` (the hypothesis of `C40_independent`), but not on `b`. -/
example : (demoWorld.only "a".toList).only "a".toList = demoWorld.only "a".toList ∧
    (demoWorld.only "a".toList).read "/x".toList ≠ demoWorld.read "/x".toList := by
  refine ⟨?_, by decide +kernel⟩
  simp only [World.only, World.mk.injEq, true_and]
  constructor <;> funext p
  · cases demoWorld.read p with
    | none => rfl
    | some b => cases b <;> simp
  · cases demoWorld.http p with
    | none => rfl
    | some b => cases b <;> simp

end Verif.Conn
