import Verif.Lemmas.NodeAttr
import Verif.Spec.Builder
import Verif.Lemmas.Node
import Verif.Props.C37
import Verif.Props.C38
import Verif.Props.C33
/-!
# Lemmas about the builder
-/

set_option autoImplicit false
set_option linter.unusedSimpArgs false

namespace Verif
open Spec

/-! ## Attributes -/

theorem has_iff (attrs : List (Str × Str)) (a : Attr) : Has attrs a ↔ ∃ s, attr? attrs a = some s := by
  unfold Has attr?
  induction attrs with
  | nil => simp
  | cons p ps ih =>
    rw [List.map_cons, List.mem_cons, List.find?_cons]
    by_cases h : p.1 = a.name
    · simp [h]
    · simp only [h, decide_false]
      rw [← ih]
      constructor
      · rintro (h' | h')
        · exact absurd h'.symm h
        · exact h'
      · exact .inr

theorem not_has_iff (attrs : List (Str × Str)) (a : Attr) : ¬ Has attrs a ↔ attr? attrs a = none := by
  rw [has_iff]
  cases attr? attrs a <;> simp

theorem getU32_ok {attrs : List (Str × Str)} {a : Attr} {o : Option W} (h : getU32 attrs a = .ok o) (dflt : W) :
    NumIs (attr? attrs a) dflt (o.getD dflt) ∧ (o = none ↔ attr? attrs a = none) := by
  unfold getU32 at h
  unfold NumIs
  cases ha : attr? attrs a with
  | none => rw [ha] at h; cases h; simp
  | some s =>
    rw [ha] at h
    simp only at h
    cases hp : parseU32 s with
    | ok v =>
      rw [hp] at h; cases h
      simp only [Option.getD_some, reduceCtorEq, and_self, and_true]
      exact (C38_exact s v).1 hp
    | incorrect => rw [hp] at h; cases h
    | tooBig => rw [hp] at h; cases h

theorem getU32_of {attrs : List (Str × Str)} {a : Attr} {dflt v : W} (h : NumIs (attr? attrs a) dflt v) :
    ∃ o, getU32 attrs a = .ok o ∧ o.getD dflt = v ∧ (o = none ↔ attr? attrs a = none) := by
  unfold getU32
  unfold NumIs at h
  cases ha : attr? attrs a with
  | none => rw [ha] at h; exact ⟨none, rfl, h.symm, by simp⟩
  | some s =>
    rw [ha] at h
    simp only at h ⊢
    rw [(C38_exact s v).2 h]
    exact ⟨some v, rfl, rfl, by simp⟩

theorem setUid_ok {top : Bool} {attrs : List (Str × Str)} {d d' : NodeData} (h : setUid (!top) attrs d = .ok d') :
    ∃ u, d' = { d with uid := u } ∧ IdIs top (attr? attrs .id) d.uid u := by
  unfold setUid at h
  unfold IdIs
  cases ha : attr? attrs .id with
  | none =>
    rw [ha] at h
    cases top with
    | true => simp only [Bool.not_true, Bool.false_eq_true, if_false] at h; cases h; exact ⟨d.uid, rfl, rfl, rfl⟩
    | false => simp at h
  | some s =>
    rw [ha] at h
    simp only at h
    split at h
    · cases h
    split at h
    · cases h
    split at h
    · cases h
    · rename_i h1 h2 h3
      cases h
      exact ⟨s, rfl, rfl, h1, h2, fun e => h3 (.inl e), fun e => h3 (.inr e)⟩

theorem setUid_of {top : Bool} {attrs : List (Str × Str)} {d : NodeData} {u : Str} (h : IdIs top (attr? attrs .id) d.uid u) :
    setUid (!top) attrs d = .ok { d with uid := u } := by
  unfold setUid
  unfold IdIs at h
  cases ha : attr? attrs .id with
  | none => rw [ha] at h; obtain ⟨rfl, rfl⟩ := h; rfl
  | some s =>
    rw [ha] at h
    obtain ⟨rfl, h1, h2, h3, h4⟩ := h
    simp only
    rw [if_neg h1, if_neg h2, if_neg]
    rintro (h | h)
    · exact h3 h
    · exact h4 h

theorem setAddr_ok {attrs : List (Str × Str)} {d d' : NodeData} (h : setAddr attrs d = .ok d') :
    ∃ a, d' = { d with part := d.part ||| a } ∧ NumIs (attr? attrs .address) 0#32 a := by
  unfold setAddr at h
  cases hg : getU32 attrs .address with
  | error e => rw [hg] at h; cases h
  | ok o => rw [hg] at h; cases h; exact ⟨_, rfl, (getU32_ok hg _).1⟩

theorem setAddr_of {attrs : List (Str × Str)} {d : NodeData} {a : W} (h : NumIs (attr? attrs .address) 0#32 a) :
    setAddr attrs d = .ok { d with part := d.part ||| a } := by
  obtain ⟨o, h1, h2, _⟩ := getU32_of h
  unfold setAddr
  rw [h1, ← h2]; rfl

theorem setMask_ok {attrs : List (Str × Str)} {d d' : NodeData} (h : setMask attrs d = .ok d') :
    ∃ a, d' = { d with mask := a } ∧ NumIs (attr? attrs .mask) d.mask a := by
  unfold setMask at h
  cases hg : getU32 attrs .mask with
  | error e => rw [hg] at h; cases h
  | ok o => rw [hg] at h; cases h; exact ⟨_, rfl, (getU32_ok hg _).1⟩

theorem setMask_of {attrs : List (Str × Str)} {d : NodeData} {a : W} (h : NumIs (attr? attrs .mask) d.mask a) :
    setMask attrs d = .ok { d with mask := a } := by
  obtain ⟨o, h1, h2, _⟩ := getU32_of h
  unfold setMask
  rw [h1, ← h2]; rfl

theorem lookup_iff_mem {α : Type} (l : List (Str × α)) (h : (l.map (·.1)).Nodup) (s : Str) (x : α) :
    l.lookup s = some x ↔ (s, x) ∈ l := by
  induction l with
  | nil => simp
  | cons p ps ih =>
    obtain ⟨a, b⟩ := p
    rw [List.map_cons, List.nodup_cons] at h
    rw [List.lookup_cons, List.mem_cons]
    by_cases e : s = a
    · subst e
      simp only [beq_self_eq_true, Option.some.injEq, Prod.mk.injEq, true_and]
      constructor
      · exact fun h => .inl h.symm
      · rintro (h' | h')
        · exact h'.symm
        · exact absurd (List.mem_map_of_mem (f := (·.1)) h') h.1
    · rw [show (s == a) = false by simpa using e]
      simp only [ih h.2, Prod.mk.injEq, e, false_and, false_or]

theorem perm_table (s : Str) (p : Permission) :
    permissionsLut.lookup s = some p ↔ (s, p) ∈ permWords.map fun x => (x.1.toList, x.2) := by
  rw [lookup_iff_mem _ (by decide)]
  have e : permWords.map (fun x => (x.1.toList, x.2)) =
    [(['r'], .read), (['r', 'e', 'a', 'd'], .read), (['w'], .write), (['w', 'r', 'i', 't', 'e'], .write), (['r', 'w'], .readWrite),
     (['w', 'r'], .readWrite), (['r', 'e', 'a', 'd', 'w', 'r', 'i', 't', 'e'], .readWrite),
     (['w', 'r', 'i', 't', 'e', 'r', 'e', 'a', 'd'], .readWrite)] := by decide
  rw [e]
  simp only [permissionsLut, List.mem_cons, List.not_mem_nil, or_false]
  constructor
  · rintro (h | h | h | h | h | h | h | h) <;> simp [h]
  · rintro (h | h | h | h | h | h | h | h) <;> simp [h]

theorem mode_table (s : Str) (p : Mode) :
    modeLut.lookup s = some p ↔ (s, p) ∈ modeWords.map fun x => (x.1.toList, x.2) := by
  rw [lookup_iff_mem _ (by decide)]
  have e : modeWords.map (fun x => (x.1.toList, x.2)) =
    [(['s', 'i', 'n', 'g', 'l', 'e'], .single), (['b', 'l', 'o', 'c', 'k'], .incremental),
     (['i', 'n', 'c', 'r', 'e', 'm', 'e', 'n', 't', 'a', 'l'], .incremental), (['i', 'n', 'c'], .incremental),
     (['p', 'o', 'r', 't'], .nonIncremental),
     (['n', 'o', 'n', '-', 'i', 'n', 'c', 'r', 'e', 'm', 'e', 'n', 't', 'a', 'l'], .nonIncremental),
     (['n', 'o', 'n', '-', 'i', 'n', 'c'], .nonIncremental)] := by decide
  rw [e]
  simp only [modeLut, List.mem_cons, List.not_mem_nil, or_false]
  constructor
  · rintro (h | h | h | h | h | h | h) <;> simp [h]
  · rintro (h | h | h | h | h | h | h) <;> simp [h]

theorem setPermissions_ok {attrs : List (Str × Str)} {d d' : NodeData} (h : setPermissions attrs d = .ok d')
    (hd : d.perm = .readWrite) : ∃ p, d' = { d with perm := p } ∧ PermIs (attr? attrs .permission) p := by
  unfold setPermissions at h
  unfold PermIs
  cases ha : attr? attrs .permission with
  | none => rw [ha] at h; cases h; exact ⟨d.perm, rfl, hd⟩
  | some s =>
    rw [ha] at h
    simp only at h
    cases hl : permissionsLut.lookup s with
    | none => rw [hl] at h; cases h
    | some p => rw [hl] at h; cases h; exact ⟨p, rfl, (perm_table s p).1 hl⟩

theorem setPermissions_of {attrs : List (Str × Str)} {d : NodeData} {p : Permission} (hd : d.perm = .readWrite)
    (h : PermIs (attr? attrs .permission) p) : setPermissions attrs d = .ok { d with perm := p } := by
  unfold setPermissions
  unfold PermIs at h
  cases ha : attr? attrs .permission with
  | none => rw [ha] at h; subst h; rw [← hd]
  | some s =>
    rw [ha] at h
    simp only
    rw [(perm_table s p).2 h]

theorem setModeAndSize_ok {attrs : List (Str × Str)} {d d' : NodeData} (h : setModeAndSize attrs d = .ok d')
    (h1 : d.mode = .hierarchical) (h2 : d.size = 1#32) :
    ∃ m z, d' = { d with mode := m, size := z } ∧ ModeIs (attr? attrs .mode) m ∧ SizeIs m (attr? attrs .size) z := by
  unfold setModeAndSize at h
  unfold ModeIs
  cases ha : attr? attrs .mode with
  | none => rw [ha] at h; cases h; exact ⟨d.mode, d.size, rfl, h1, by rw [h1]; exact h2⟩
  | some s =>
    rw [ha] at h
    simp only at h
    cases hl : modeLut.lookup s with
    | none => rw [hl] at h; cases h
    | some m =>
      rw [hl] at h
      simp only at h
      have hm := (mode_table s m).1 hl
      by_cases e1 : m = .incremental
      · rw [if_pos e1] at h
        cases hg : getU32 attrs .size with
        | error e => rw [hg] at h; cases h
        | ok o =>
          rw [hg] at h
          cases o with
          | none => cases h
          | some z =>
            cases h
            refine ⟨m, z, rfl, hm, ?_⟩
            have := getU32_ok hg 1#32
            rw [e1]
            exact ⟨fun hn => by simpa using this.2.2 hn, this.1⟩
      · rw [if_neg e1] at h
        by_cases e2 : m = .nonIncremental
        · rw [if_pos e2] at h
          cases hg : getU32 attrs .size with
          | error e => rw [hg] at h; cases h
          | ok o =>
            rw [hg] at h; cases h
            refine ⟨m, _, rfl, hm, ?_⟩
            rw [e2, h2]
            exact (getU32_ok hg 1#32).1
        · rw [if_neg e2] at h
          cases h
          refine ⟨m, d.size, rfl, hm, ?_⟩
          cases m <;> simp_all [SizeIs]

theorem setModeAndSize_of {attrs : List (Str × Str)} {d : NodeData} {m : Mode} {z : W} (h1 : d.mode = .hierarchical)
    (h2 : d.size = 1#32) (hm : ModeIs (attr? attrs .mode) m) (hz : SizeIs m (attr? attrs .size) z) :
    setModeAndSize attrs d = .ok { d with mode := m, size := z } := by
  unfold setModeAndSize
  unfold ModeIs at hm
  cases ha : attr? attrs .mode with
  | none => rw [ha] at hm; subst hm; simp only [SizeIs] at hz; rw [hz, ← h1, ← h2]
  | some s =>
    rw [ha] at hm
    simp only
    rw [(mode_table s m).2 hm]
    simp only
    cases m with
    | single => simp only [SizeIs] at hz; simp [hz, ← h2]
    | hierarchical => simp only [SizeIs] at hz; simp [hz, ← h2]
    | incremental =>
      obtain ⟨hn, hz⟩ := hz
      obtain ⟨o, g1, g2, g3⟩ := getU32_of hz
      rw [if_pos rfl, g1]
      cases o with
      | none => exact absurd (g3.1 rfl) hn
      | some y => simp only [Option.getD_some] at g2; subst g2; rfl
    | nonIncremental =>
      obtain ⟨o, g1, g2, g3⟩ := getU32_of hz
      rw [if_neg (by simp), if_pos rfl, g1, ← g2, h2]; rfl

/-- The fields that the table shows. -/
def NodeData.core (d : NodeData) : Str × W × W × Permission × Mode × W := (d.uid, d.part, d.mask, d.perm, d.mode, d.size)

/-- The descriptive attributes. -/
def NodeData.info (d : NodeData) : Info := ⟨d.cls, d.tags, d.desc, d.pars, d.fw⟩

theorem core_pars (attrs : List (Str × Str)) (d : NodeData) : (setPars attrs d).core = d.core := by
  simp only [setPars]; split <;> rfl
theorem core_fw {attrs : List (Str × Str)} {d d' : NodeData} (h : setFirmwareInfo attrs d = .ok d') : d'.core = d.core := by
  simp only [setFirmwareInfo] at h
  split at h
  · split at h
    · cases h
    · cases h; rfl
  · cases h; rfl
theorem core_cls (attrs : List (Str × Str)) (d : NodeData) : (setClassName attrs d).core = d.core := rfl
theorem core_tags (attrs : List (Str × Str)) (d : NodeData) : (setTags attrs d).core = d.core := rfl
theorem core_desc (attrs : List (Str × Str)) (d : NodeData) : (setDescription attrs d).core = d.core := rfl
theorem core_mod (cur : Str) (d : NodeData) : (setModule cur d).core = d.core := rfl

theorem addText_eq (old s : Str) : addText old s = joinText old s := by
  unfold addText joinText
  by_cases hs : s = []
  · simp [hs]
  · by_cases ho : old = []
    · simp [hs, ho]
    · simp [hs, ho]

theorem setPars_ok (attrs : List (Str × Str)) (d : NodeData) :
    ∃ ps, setPars attrs d = { d with pars := ps } ∧ ParsAre ((attr? attrs .parameters).getD []) d.pars ps := by
  simp only [setPars]
  generalize (attr? attrs .parameters).getD [] = s
  by_cases hs : s = []
  · subst hs; exact ⟨d.pars, by simp, .inl ⟨rfl, rfl⟩⟩
  · rw [if_pos hs]
    exact ⟨_, rfl, .inr ⟨hs, _, NodeAttr.parsOf_exists s, by rw [NodeAttr.foldl_insert, NodeAttr.parsMap_eq]⟩⟩

theorem parsAre_unique {s : Str} {old a b : List (Str × Str)} (h : ParsAre s old a) (h' : ParsAre s old b) : a = b := by
  rcases h with ⟨h1, h2⟩ | ⟨h1, ps, h2, h3⟩
  · rcases h' with ⟨g1, g2⟩ | ⟨g1, _⟩
    · rw [h2, g2]
    · exact absurd h1 g1
  · rcases h' with ⟨g1, g2⟩ | ⟨g1, qs, g2, g3⟩
    · exact absurd g1 h1
    · rw [h3, g3, ← (NodeAttr.parsePars_iff s ps).2 h2, ← (NodeAttr.parsePars_iff s qs).2 g2]

theorem setFirmwareInfo_ok {attrs : List (Str × Str)} {d d' : NodeData} (h : setFirmwareInfo attrs d = .ok d') :
    ∃ f, d' = { d with fw := f } ∧ FwAre ((attr? attrs .fwinfo).getD []) d.fw f := by
  simp only [setFirmwareInfo] at h
  revert h
  generalize (attr? attrs .fwinfo).getD [] = s
  intro h
  by_cases hs : s = []
  · subst hs
    simp only [ne_eq, not_true_eq_false, if_false, Except.ok.injEq] at h
    exact ⟨d.fw, by rw [← h], .inl ⟨rfl, rfl⟩⟩
  · rw [if_pos hs] at h
    split at h
    · cases h
    · rename_i type args he
      cases h
      exact ⟨_, rfl, .inr ⟨hs, type, args, (NodeAttr.parseFw_iff s type args).1 he, by
        rw [← List.foldl_cons, NodeAttr.foldl_insert]⟩⟩

theorem setFirmwareInfo_of {attrs : List (Str × Str)} {d : NodeData} {f : List (Str × Str)}
    (h : FwAre ((attr? attrs .fwinfo).getD []) d.fw f) : setFirmwareInfo attrs d = .ok { d with fw := f } := by
  simp only [setFirmwareInfo]
  revert h
  generalize (attr? attrs .fwinfo).getD [] = s
  intro h
  rcases h with ⟨h1, rfl⟩ | ⟨h1, ty, args, h2, rfl⟩
  · rw [if_neg (by simpa using h1)]
  · rw [if_pos h1, (NodeAttr.parseFw_iff s ty args).2 h2]
    simp only
    rw [← List.foldl_cons (f := mapInsert), NodeAttr.foldl_insert]

/-- The three setters that all kinds of elements share, and the class before or after them. -/
theorem texts_ok {attrs : List (Str × Str)} {cur : Str} {d d1 d2 : NodeData} (h : setFirmwareInfo attrs (setPars attrs d) = .ok d1)
    (h2 : d2 = setModule cur (setDescription attrs (setTags attrs d1))) :
    d2.core = d.core ∧ d2.cls = d.cls ∧ (d.cls = (attr? attrs .class_).getD [] → InfoIs attrs d.info d2.info) ∧ d2.module = cur := by
  obtain ⟨ps, e1, hp⟩ := setPars_ok attrs d
  rw [e1] at h
  obtain ⟨f, rfl, hf⟩ := setFirmwareInfo_ok h
  subst h2
  exact ⟨rfl, rfl, fun hc => ⟨hc, addText_eq _ _, addText_eq _ _, hp, hf⟩, rfl⟩

theorem texts_of {attrs : List (Str × Str)} (cur : Str) {d : NodeData} {i : Info} (h : InfoIs attrs d.info i)
    (hc : d.cls = (attr? attrs .class_).getD []) :
    ∃ d1, setFirmwareInfo attrs (setPars attrs d) = .ok d1 ∧
      (setModule cur (setDescription attrs (setTags attrs d1))).core = d.core ∧
      (setModule cur (setDescription attrs (setTags attrs d1))).info = i ∧ d1.cls = d.cls := by
  obtain ⟨ps, e1, hp⟩ := setPars_ok attrs d
  obtain ⟨i1, i2, i3, i4, i5⟩ := h
  obtain ⟨ic, it, ide, ip, ifw⟩ := i
  have hps := parsAre_unique hp i4
  simp only at i1 i2 i3 i4 i5 hps
  subst i1 i2 i3 hps
  refine ⟨{ d with pars := ps, fw := ifw }, by rw [e1]; exact setFirmwareInfo_of (d := { d with pars := ps }) i5, rfl, ?_, rfl⟩
  simp only [NodeData.info, setModule, setDescription, setTags, hc]
  rw [addText_eq, addText_eq]

theorem plainData_ok {top : Bool} {attrs : List (Str × Str)} {cur : Str} {d : NodeData}
    (h : plainData (!top) attrs cur = .ok d) :
    IdIs top (attr? attrs .id) [] d.uid ∧ NumIs (attr? attrs .address) 0#32 d.part ∧ d.mask = 0xFFFFFFFF#32 ∧
    PermIs (attr? attrs .permission) d.perm ∧ ModeIs (attr? attrs .mode) d.mode ∧ SizeIs d.mode (attr? attrs .size) d.size ∧
    InfoIs attrs {} d.info := by
  unfold plainData at h
  cases h1 : setUid (!top) attrs {} with
  | error e => rw [h1] at h; cases h
  | ok d1 =>
    rw [h1] at h
    obtain ⟨u, rfl, hu⟩ := setUid_ok h1
    cases h2 : setAddr attrs { ({} : NodeData) with uid := u } with
    | error e => simp only [bind, Except.bind, h2] at h; cases h
    | ok d2 =>
      simp only [bind, Except.bind, h2] at h
      obtain ⟨a, rfl, ha⟩ := setAddr_ok h2
      cases hf : setFirmwareInfo attrs (setPars attrs { ({} : NodeData) with uid := u, part := 0#32 ||| a }) with
      | error e => simp only [hf] at h; cases h
      | ok df =>
        simp only [hf] at h
        generalize hd3 : setModule cur _ = d3 at h
        obtain ⟨t1, t2, t3, _⟩ := texts_ok (cur := cur) hf rfl
        obtain ⟨ps, e1, hp⟩ := setPars_ok attrs { ({} : NodeData) with uid := u, part := 0#32 ||| a }
        rw [e1] at hf
        obtain ⟨f, rfl, hff⟩ := setFirmwareInfo_ok hf
        have hc : d3.core = (u, 0#32 ||| a, 0xFFFFFFFF#32, Permission.readWrite, Mode.hierarchical, 1#32) := by
          rw [← hd3, core_mod, core_desc, core_tags, core_cls]; rfl
        have hi : InfoIs attrs {} d3.info := by
          rw [← hd3]
          exact ⟨rfl, addText_eq _ _, addText_eq _ _, hp, hff⟩
        simp only [NodeData.core, Prod.mk.injEq] at hc
        obtain ⟨c1, c2, c3, c4, c5, c6⟩ := hc
        cases h3 : setPermissions attrs d3 with
        | error e => rw [h3] at h; cases h
        | ok d4 =>
          rw [h3] at h
          obtain ⟨p, rfl, hp⟩ := setPermissions_ok h3 c4
          simp only at h
          obtain ⟨m, z, rfl, hm, hz⟩ := setModeAndSize_ok h c5 c6
          refine ⟨by simp only; rw [c1]; exact hu, ?_, c3, hp, hm, hz, hi⟩
          simp only; rw [c2]; simpa using ha

theorem plainData_of {top : Bool} {attrs : List (Str × Str)} (cur : Str) {u : Str} {a : W} {p : Permission}
    {m : Mode} {z : W} {i : Info} (hu : IdIs top (attr? attrs .id) [] u) (ha : NumIs (attr? attrs .address) 0#32 a)
    (hp : PermIs (attr? attrs .permission) p) (hm : ModeIs (attr? attrs .mode) m) (hz : SizeIs m (attr? attrs .size) z)
    (hi : InfoIs attrs {} i) :
    ∃ d, plainData (!top) attrs cur = .ok d ∧ d.core = (u, a, 0xFFFFFFFF#32, p, m, z) ∧ d.info = i := by
  unfold plainData
  rw [setUid_of (d := {}) hu]
  simp only [bind, Except.bind]
  rw [setAddr_of ha]
  simp only
  obtain ⟨ps, e1, hps⟩ := setPars_ok attrs { ({} : NodeData) with uid := u, part := 0#32 ||| a }
  have hff : setFirmwareInfo attrs (setPars attrs { ({} : NodeData) with uid := u, part := 0#32 ||| a }) =
      .ok { ({} : NodeData) with uid := u, part := 0#32 ||| a, pars := ps, fw := i.fw } := by
    rw [e1]; exact setFirmwareInfo_of (d := { ({} : NodeData) with uid := u, part := 0#32 ||| a, pars := ps }) (f := i.fw) hi.fw
  rw [hff]
  simp only
  generalize hd3 : setModule cur _ = d3
  have hc : d3.core = (u, 0#32 ||| a, 0xFFFFFFFF#32, Permission.readWrite, Mode.hierarchical, 1#32) := by
    rw [← hd3, core_mod, core_desc, core_tags, core_cls]; rfl
  have hi3 : d3.info = i := by
    obtain ⟨ic, it, ide, ip, ifw⟩ := i
    obtain ⟨i1, i2, i3, i4, i5⟩ := hi
    have := parsAre_unique hps i4
    simp only at i1 i2 i3 this
    subst i1 i2 i3 this
    rw [← hd3]
    simp only [NodeData.info, setModule, setDescription, setTags, setClassName]
    rw [addText_eq, addText_eq]
  simp only [NodeData.core, Prod.mk.injEq] at hc
  obtain ⟨c1, c2, c3, c4, c5, c6⟩ := hc
  rw [setPermissions_of c4 hp]
  simp only
  rw [setModeAndSize_of (d := { d3 with perm := p }) c5 c6 hm hz]
  refine ⟨_, rfl, ?_, ?_⟩
  · simp [NodeData.core, c1, c2, c3]
  · exact hi3

theorem maskData_ok {top : Bool} {attrs : List (Str × Str)} {cur : Str} {d : NodeData}
    (h : maskData (!top) attrs cur = .ok d) :
    IdIs top (attr? attrs .id) [] d.uid ∧ NumIs (attr? attrs .address) 0#32 d.part ∧
    NumIs (attr? attrs .mask) 0xFFFFFFFF#32 d.mask ∧ PermIs (attr? attrs .permission) d.perm ∧ d.mode = .hierarchical ∧ d.size = 1#32 ∧
    InfoIs attrs {} d.info := by
  unfold maskData at h
  cases h1 : setUid (!top) attrs {} with
  | error e => rw [h1] at h; cases h
  | ok d1 =>
    rw [h1] at h
    obtain ⟨u, rfl, hu⟩ := setUid_ok h1
    cases h2 : setAddr attrs { ({} : NodeData) with uid := u } with
    | error e => simp only [bind, Except.bind, h2] at h; cases h
    | ok d2 =>
      simp only [bind, Except.bind, h2] at h
      obtain ⟨a, rfl, ha⟩ := setAddr_ok h2
      generalize hd0 : setClassName attrs _ = d0 at h
      cases hf : setFirmwareInfo attrs (setPars attrs d0) with
      | error e => simp only [hf] at h; cases h
      | ok df =>
        simp only [hf] at h
        generalize hd3 : setModule cur _ = d3 at h
        obtain ⟨t1, t2, t3, _⟩ := texts_ok hf hd3.symm
        have hc : d3.core = (u, 0#32 ||| a, 0xFFFFFFFF#32, Permission.readWrite, Mode.hierarchical, 1#32) := by
          rw [t1, ← hd0, core_cls]; rfl
        have hi : InfoIs attrs {} d3.info := by
          have := t3 (by rw [← hd0]; rfl)
          refine ⟨this.cls, this.tags.trans ?_, this.desc.trans ?_, ?_, ?_⟩
          · rw [← hd0]; rfl
          · rw [← hd0]; rfl
          · have h := this.pars; rw [← hd0] at h; exact h
          · have h := this.fw; rw [← hd0] at h; exact h
        simp only [NodeData.core, Prod.mk.injEq] at hc
        obtain ⟨c1, c2, c3, c4, c5, c6⟩ := hc
        cases h3 : setPermissions attrs d3 with
        | error e => rw [h3] at h; cases h
        | ok d4 =>
          rw [h3] at h
          obtain ⟨p, rfl, hp⟩ := setPermissions_ok h3 c4
          simp only at h
          obtain ⟨k, rfl, hk⟩ := setMask_ok h
          refine ⟨by simp only; rw [c1]; exact hu, ?_, ?_, hp, c5, c6, hi⟩
          · simp only; rw [c2]; simpa using ha
          · simp only at hk; rw [c3] at hk; exact hk

theorem maskData_of {top : Bool} {attrs : List (Str × Str)} (cur : Str) {u : Str} {a k : W} {p : Permission} {i : Info}
    (hu : IdIs top (attr? attrs .id) [] u) (ha : NumIs (attr? attrs .address) 0#32 a)
    (hk : NumIs (attr? attrs .mask) 0xFFFFFFFF#32 k) (hp : PermIs (attr? attrs .permission) p) (hi : InfoIs attrs {} i) :
    ∃ d, maskData (!top) attrs cur = .ok d ∧ d.core = (u, a, k, p, .hierarchical, 1#32) ∧ d.info = i := by
  unfold maskData
  rw [setUid_of (d := {}) hu]
  simp only [bind, Except.bind]
  rw [setAddr_of ha]
  simp only
  obtain ⟨d1, g1, g2, g3, _⟩ := texts_of cur (attrs := attrs) (i := i)
    (d := setClassName attrs { ({} : NodeData) with uid := u, part := 0#32 ||| a })
    ⟨hi.cls, hi.tags, hi.desc, hi.pars, hi.fw⟩ rfl
  rw [g1]
  simp only
  generalize setModule cur _ = d3 at g2 g3 ⊢
  have hc : d3.core = (u, 0#32 ||| a, 0xFFFFFFFF#32, Permission.readWrite, Mode.hierarchical, 1#32) := by
    rw [g2, core_cls]; rfl
  simp only [NodeData.core, Prod.mk.injEq] at hc
  obtain ⟨c1, c2, c3, c4, c5, c6⟩ := hc
  rw [setPermissions_of c4 hp]
  simp only
  rw [setMask_of (d := { d3 with perm := p }) (by simp only; rw [c3]; exact hk)]
  refine ⟨_, rfl, ?_, ?_⟩
  · simp [NodeData.core, c1, c2, c3, c5, c6]
  · exact g3

theorem moduleData_ok {top : Bool} {attrs : List (Str × Str)} {cur : Str} {d d' : NodeData}
    (h : moduleData (!top) attrs cur d = .ok d') :
    ∃ u a, d'.core = (u, d.part ||| a, d.mask, d.perm, d.mode, d.size) ∧ IdIs top (attr? attrs .id) d.uid u ∧
      NumIs (attr? attrs .address) 0#32 a ∧ InfoIs attrs d.info d'.info := by
  unfold moduleData at h
  cases h1 : setUid (!top) attrs d with
  | error e => rw [h1] at h; cases h
  | ok d1 =>
    rw [h1] at h
    obtain ⟨u, rfl, hu⟩ := setUid_ok h1
    cases h2 : setAddr attrs { d with uid := u } with
    | error e => simp only [bind, Except.bind, h2] at h; cases h
    | ok d2 =>
      simp only [bind, Except.bind, h2, pure, Except.pure] at h
      obtain ⟨a, rfl, ha⟩ := setAddr_ok h2
      generalize hd0 : setClassName attrs _ = d0 at h
      cases hf : setFirmwareInfo attrs (setPars attrs d0) with
      | error e => simp only [hf] at h; cases h
      | ok df =>
        simp only [hf, Except.ok.injEq] at h
        obtain ⟨t1, t2, t3, _⟩ := texts_ok hf h.symm
        have := t3 (by rw [← hd0]; rfl)
        refine ⟨u, a, ?_, hu, ha, this.cls, this.tags.trans ?_, this.desc.trans ?_, ?_, ?_⟩
        · rw [t1, ← hd0, core_cls]; rfl
        · rw [← hd0]; rfl
        · rw [← hd0]; rfl
        · have h := this.pars; rw [← hd0] at h; exact h
        · have h := this.fw; rw [← hd0] at h; exact h

theorem moduleData_of {top : Bool} {attrs : List (Str × Str)} (cur : Str) {u : Str} {a : W} (d : NodeData) {i : Info}
    (hu : IdIs top (attr? attrs .id) d.uid u) (ha : NumIs (attr? attrs .address) 0#32 a) (hi : InfoIs attrs d.info i) :
    ∃ d', moduleData (!top) attrs cur d = .ok d' ∧ d'.core = (u, d.part ||| a, d.mask, d.perm, d.mode, d.size) ∧ d'.info = i := by
  unfold moduleData
  rw [setUid_of hu]
  simp only [bind, Except.bind]
  rw [setAddr_of ha]
  simp only
  obtain ⟨d1, g1, g2, g3, _⟩ := texts_of cur (attrs := attrs) (i := i) (d := setClassName attrs { d with uid := u, part := d.part ||| a })
    ⟨hi.cls, hi.tags, hi.desc, hi.pars, hi.fw⟩ rfl
  rw [g1]
  exact ⟨_, rfl, g2, g3⟩

/-! ## The kind of an element -/

/-- The id, if it is needed. -/
def NeedsId (top : Bool) (attrs : List (Str × Str)) : Prop := top = false → Has attrs .id

theorem kindOf_plain (top : Bool) (attrs : List (Str × Str)) : kindOf top attrs = .rule 0 ↔
    KnownAttrs attrs ∧ NeedsId top attrs ∧ ¬ Has attrs .mask ∧ ¬ Has attrs .module_ := by
  obtain ⟨⟨p, hp⟩, q, hq⟩ := C37_builder_parsers
  unfold kindOf NeedsId
  cases top with
  | true => simp only [if_true, hp, reduceCtorEq, false_implies, true_and]; exact (C37_top hp attrs).2.1
  | false => simp only [Bool.false_eq_true, if_false, hq, true_implies]; exact (C37_node hq attrs).2.1

theorem kindOf_mask (top : Bool) (attrs : List (Str × Str)) : kindOf top attrs = .rule 1 ↔
    KnownAttrs attrs ∧ NeedsId top attrs ∧ Has attrs .mask ∧ ¬ Has attrs .module_ ∧ ¬ Has attrs .class_ ∧ ¬ Has attrs .mode ∧
      ¬ Has attrs .size := by
  obtain ⟨⟨p, hp⟩, q, hq⟩ := C37_builder_parsers
  unfold kindOf NeedsId
  cases top with
  | true => simp only [if_true, hp, reduceCtorEq, false_implies, true_and]; exact (C37_top hp attrs).2.2.1
  | false => simp only [Bool.false_eq_true, if_false, hq, true_implies]; exact (C37_node hq attrs).2.2.1

theorem kindOf_module (top : Bool) (attrs : List (Str × Str)) : kindOf top attrs = .rule 2 ↔
    KnownAttrs attrs ∧ NeedsId top attrs ∧ Has attrs .module_ ∧ ¬ Has attrs .mask ∧ ¬ Has attrs .mode ∧ ¬ Has attrs .size ∧
      ¬ Has attrs .permission := by
  obtain ⟨⟨p, hp⟩, q, hq⟩ := C37_builder_parsers
  unfold kindOf NeedsId
  cases top with
  | true => simp only [if_true, hp, reduceCtorEq, false_implies, true_and]; exact (C37_top hp attrs).2.2.2.1
  | false => simp only [Bool.false_eq_true, if_false, hq, true_implies]; exact (C37_node hq attrs).2.2.2.1

theorem needsId_of {top : Bool} {attrs : List (Str × Str)} {dflt u : Str} (h : IdIs top (attr? attrs .id) dflt u) : NeedsId top attrs := by
  intro ht
  rw [has_iff]
  unfold IdIs at h
  cases ha : attr? attrs .id with
  | none => rw [ha] at h; rw [ht] at h; cases h.1
  | some s => exact ⟨s, rfl⟩

end Verif
