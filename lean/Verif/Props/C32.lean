import Verif.Lemmas.BuilderSpec
/-!
# C32: node addresses are the sum of the address offsets along the path; C47: the cache of address files

The declared tree (`Spec.Declared`) and its table (`Decl.rows`) are in `Verif/Spec/Builder.lean`. `Node.table` (the addresses, modes,
masks, permissions and sizes stored in the nodes) is compared up to the order of the lines: the builder sorts children.
-/

set_option autoImplicit false

namespace Verif
open Spec

/-! ## C47: the cache makes no difference -/

/-- **C47**: with a coherent cache (the empty one is, and calls keep it so), a tree or an exception is exactly what comes out
when every file is read again; and building with the cache comes to an end whenever building without does. -/
theorem C47_cache {env : BuildEnv} (hp : env.Protocols) {c : NodeCache} (hc : Coherent env c) (F : Nat) (e cur : Str) :
    (∀ n c', getNodeTree env true F e cur c = .ok n c' → Coherent env c' ∧ ∃ G, getNodeTree env false G e cur [] = .ok n []) ∧
    (∀ x c', getNodeTree env true F e cur c = .exc x c' → Coherent env c' ∧ ∃ G, getNodeTree env false G e cur [] = .exc x []) ∧
    (getNodeTree env false F e cur [] ≠ .loops → getNodeTree env true F e cur c ≠ .loops) :=
  ⟨(getNodeTree_agree hp F e cur c hc).1, (getNodeTree_agree hp F e cur c hc).2, getNodeTree_ends hp F e cur c hc⟩

/-- **C47**: what has been built before does not matter: any two coherent caches give the same tree, or the same exception. -/
theorem C47_history {env : BuildEnv} (hp : env.Protocols) {c d c' d' : NodeCache} (hc : Coherent env c) (hd : Coherent env d)
    {F G : Nat} {e cur : Str} :
    (∀ n m, getNodeTree env true F e cur c = .ok n c' → getNodeTree env true G e cur d = .ok m d' → n = m) ∧
    (∀ n x, getNodeTree env true F e cur c = .ok n c' → getNodeTree env true G e cur d ≠ .exc x d') ∧
    (∀ x y, getNodeTree env true F e cur c = .exc x c' → getNodeTree env true G e cur d = .exc y d' → x = y) := by
  have fam := getNodeTree_fam env e cur
  have same : ∀ {A B : Nat} {o p : BOut Node}, getNodeTree env false A e cur [] = o → getNodeTree env false B e cur [] = p →
      o ≠ .loops → p ≠ .loops → o = p := by
    intro A B o p ha hb ho hp'
    have h1 := fam.up (Nat.le_max_left A B) ha ho
    have h2 := fam.up (Nat.le_max_right A B) hb hp'
    exact h1.symm.trans h2
  refine ⟨?_, ?_, ?_⟩
  · intro n m h1 h2
    obtain ⟨_, A, hA⟩ := (C47_cache hp hc F e cur).1 n c' h1
    obtain ⟨_, B, hB⟩ := (C47_cache hp hd G e cur).1 m d' h2
    have := same hA hB (by simp) (by simp)
    cases this; rfl
  · intro n x h1 h2
    obtain ⟨_, A, hA⟩ := (C47_cache hp hc F e cur).1 n c' h1
    obtain ⟨_, B, hB⟩ := (C47_cache hp hd G e cur).2.1 x d' h2
    have := same hA hB (by simp) (by simp)
    cases this
  · intro x y h1 h2
    obtain ⟨_, A, hA⟩ := (C47_cache hp hc F e cur).2.1 x c' h1
    obtain ⟨_, B, hB⟩ := (C47_cache hp hd G e cur).2.1 y d' h2
    have := same hA hB (by simp) (by simp)
    cases this; rfl

/-! ## C32 -/

/-- **C32** (soundness): a tree that is built has the table of the tree that the files declare, with the addresses of an
included file's outermost node and of the including element combined by bitwise or.
Missing for C32: `orJ` should be `sumJ`; see `C32_sum_partial`, `C32_violated_or`. -/
theorem C32_sound_partial {env : BuildEnv} (hs : env.Sorts) (hp : env.Protocols) {c c' : NodeCache} (hc : Coherent env c) {F : Nat}
    {e cur : Str} {n : Node} (h : getNodeTree env true F e cur c = .ok n c') :
    ∃ t, Declared env orJ e cur t ∧ n.table.Perm (t.rows 0#32) := by
  obtain ⟨_, G, hG⟩ := (C47_cache hp hc F e cur).1 n c' h
  obtain ⟨t, h1, h2, h3⟩ := getNodeTree_sound hs G e cur n [] [] hG
  exact ⟨t, ⟨G, h1⟩, h3⟩

/-- **C32** (completeness): whatever files declare is built. -/
theorem C32_complete {env : BuildEnv} (hs : env.Sorts) (hp : env.Protocols) {c : NodeCache} (hc : Coherent env c) {e cur : Str} {t : Decl}
    (h : Declared env orJ e cur t) :
    ∃ D, ∀ F, D ≤ F → ∃ n c', getNodeTree env true F e cur c = .ok n c' ∧ n.table.Perm (t.rows 0#32) := by
  obtain ⟨D, hD⟩ := h
  refine ⟨D, fun F hF => ?_⟩
  obtain ⟨n, hn, hl⟩ := getNodeTree_complete hs F e cur t [] (FileDeclares.up hF hD)
  obtain ⟨_, _, _, h3⟩ := getNodeTree_sound hs F e cur n [] [] hn
  obtain ⟨a1, a2, a3⟩ := C47_cache hp hc F e cur
  have hend := a3 (by rw [hn]; simp)
  have fam := getNodeTree_fam env e cur
  cases hg : getNodeTree env true F e cur c with
  | loops => exact absurd hg hend
  | exc x c' =>
    obtain ⟨_, G, hG⟩ := a2 x c' hg
    have h1 := fam.up (Nat.le_max_left F G) hn (by simp)
    have h2 := fam.up (Nat.le_max_right F G) hG (by simp)
    have := h1.symm.trans h2
    cases this
  | ok m c' =>
    obtain ⟨_, G, hG⟩ := a1 m c' hg
    have h1 := fam.up (Nat.le_max_left F G) hn (by simp)
    have h2 := fam.up (Nat.le_max_right F G) hG (by simp)
    have := h1.symm.trans h2
    cases this
    refine ⟨n, c', rfl, ?_⟩
    obtain ⟨t', _, hl', hperm⟩ := getNodeTree_sound hs F e cur n [] [] hn
    exact hperm.trans ((hl'.symm.trans hl).rows 0#32)

/-- **C32**: if the address of an included file's outermost node and that of the including element never have a bit in
common, every address is the sum of the addresses along the path, and modes, masks, permissions and sizes are the declared ones,
whether sub-trees are included or written inline (`Declared` is about the tree with inclusions written inline).
Missing for C32: common bits, for which it fails (`C32_violated_or`). -/
theorem C32_sum_partial {env : BuildEnv} (hs : env.Sorts) (hp : env.Protocols) {c : NodeCache} (hc : Coherent env c) {e cur : Str} {t : Decl}
    (h : Declared env disjJ e cur t) :
    Declared env sumJ e cur t ∧
    (∃ D, ∀ F, D ≤ F → ∃ n c', getNodeTree env true F e cur c = .ok n c' ∧ n.table.Perm (t.rows 0#32)) ∧
    (∀ F n c', getNodeTree env true F e cur c = .ok n c' → n.table.Perm (t.rows 0#32)) ∧
    (∀ F x c', getNodeTree env true F e cur c ≠ .exc x c') := by
  obtain ⟨D, hD⟩ := h
  have ho : Declared env orJ e cur t := ⟨D, FileDeclares.mono disj_or (Nat.le_refl D) e cur t hD⟩
  obtain ⟨D', hall⟩ := C32_complete hs hp hc ho
  obtain ⟨m, d', hm, hperm⟩ := hall D' (Nat.le_refl D')
  refine ⟨⟨D, FileDeclares.mono disj_sum (Nat.le_refl D) e cur t hD⟩, ⟨D', hall⟩, ?_, ?_⟩
  · intro F n c' hn
    rw [(C47_history hp hc hc).1 n m hn hm]
    exact hperm
  · intro F x c' hx
    exact (C47_history hp hc hc).2.1 m x hm hx

/-! ### Inline instead of included -/

/-- `y` is the element `x` (attributes `attrs`, including the file with the outermost element `rattrs`) written inline: the id of `x`,
the sum of the addresses, the descriptive attributes of both put together, everything else from the included element. -/
structure InlineOf (attrs rattrs ia : List (Str × Str)) (rpart off : W) : Prop where
  known : KnownAttrs ia
  id : attr? ia .id = attr? attrs .id
  address : NumIs (attr? ia .address) 0#32 (rpart + off)
  mask : attr? ia .mask = attr? rattrs .mask
  module_ : attr? ia .module_ = attr? rattrs .module_
  mode : attr? ia .mode = attr? rattrs .mode
  size : attr? ia .size = attr? rattrs .size
  perm : attr? ia .permission = attr? rattrs .permission
  info : ∀ i, InfoIs ia {} i ↔ ∃ r, InfoIs rattrs {} r ∧ InfoIs attrs r i

/-- **C32** (inclusion and inline): an element that includes a file whose outermost element is a plain node, and the element that
has the contents of the file inline, declare the same trees. -/
theorem C32_inline {env : BuildEnv} {attrs rattrs ia : List (Str × Str)} {kids rkids : List Xml} {m cur proto path ruid : Str}
    {fs : List (Str × Str)} {rpart off : W} {top : Bool}
    (hka : KnownAttrs attrs) (hm : attr? attrs .module_ = some m) (hno : ¬ Has attrs .mask ∧ ¬ Has attrs .mode ∧ ¬ Has attrs .size ∧
      ¬ Has attrs .permission) (hid : Has attrs .id)
    (ho : env.open_ m cur = some fs) (hu : fs.filter (fun f => (env.file f.1 f.2).isSome) = [(proto, path)])
    (hx : env.file proto path = some (.el rattrs rkids)) (hkr : KnownAttrs rattrs) (hr : ¬ Has rattrs .mask ∧ ¬ Has rattrs .module_)
    (hruid : IdIs true (attr? rattrs .id) [] ruid) (hrpart : NumIs (attr? rattrs .address) 0#32 rpart)
    (hoff : NumIs (attr? attrs .address) 0#32 off) (hia : InlineOf attrs rattrs ia rpart off)
    (hcur : ∀ e, env.open_ e cur = env.open_ e path)
    (hblock : ∀ mo z, ModeIs (attr? rattrs .mode) mo → SizeIs mo (attr? rattrs .size) z → BlockOK mo rpart z) (t : Decl) (ht : t.BlocksOK) :
    Declares sumJ (Declared env sumJ) top cur (.el attrs kids) t ↔ Declares sumJ (Declared env sumJ) top cur (.el ia rkids) t := by
  obtain ⟨uid, part, mask, perm, mode, size, info, ks⟩ := t
  have hI : ∀ e t, Declared env sumJ e cur t ↔ Declared env sumJ e path t := by
    intro e t; rw [Declared.iff, Declared.iff, hcur]
  have hhm : Has attrs .module_ := (has_iff _ _).2 ⟨m, hm⟩
  have hm1 : ¬ Has ia .mask := by rw [not_has_iff, hia.mask, ← not_has_iff]; exact hr.1
  have hm2 : ¬ Has ia .module_ := by rw [not_has_iff, hia.module_, ← not_has_iff]; exact hr.2
  obtain ⟨s, hs⟩ := (has_iff _ _).1 hid
  rw [Declares, Declares]
  rw [hia.id, hia.mode, hia.size, hia.perm]
  constructor
  · rintro ⟨_, h | h | h⟩
    · exact absurd hhm h.2.1
    · exact absurd h.1 hno.1
    · obtain ⟨_, _, _, _, _, m', ru, rp, off', ri, hm', hd, p1, p2, hj, hinf⟩ := h
      rw [hm] at hm'
      cases hm'
      obtain ⟨fs', proto', path', x', ho', hu', hx', hd', hb'⟩ := (Declared.iff _ _ _ _ _).1 hd
      rw [ho] at ho'; cases ho'
      rw [hu] at hu'; cases hu'
      rw [hx] at hx'; cases hx'
      rw [Declares] at hd'
      obtain ⟨_, h | h | h⟩ := hd'
      · obtain ⟨_, _, q1, q2, q3, q4, q5, q6, q9, q7, q8⟩ := h
        refine ⟨hia.known, .inl ⟨hm1, hm2, ?_, ?_, q3, q4, q5, q6, (hia.info _).2 ⟨_, q9, hinf⟩, q7, DeclaresL.mono (fun _ _ _ h => h) (fun e t => (hI e t).2) _ _ q8⟩⟩
        · rw [hs] at p1 ⊢; exact p1
        · have e1 := NumIs.unique q2 hrpart
          have e2 := NumIs.unique p2 hoff
          unfold sumJ at hj
          rw [hj, e1, e2]
          exact hia.address
      · exact absurd h.1 hr.1
      · exact absurd h.1 hr.2
  · rintro ⟨_, h | h | h⟩
    · obtain ⟨_, _, q1, q2, q3, q4, q5, q6, q9, q7, q8⟩ := h
      obtain ⟨ri, hri, hi2⟩ := (hia.info _).1 q9
      refine ⟨hka, .inr (.inr ⟨hhm, hno.1, hno.2.1, hno.2.2.1, hno.2.2.2, m, ruid, rpart, off, ri, hm, ?_, ?_, hoff, ?_, hi2⟩)⟩
      · refine (Declared.iff _ _ _ _ _).2 ⟨fs, proto, path, _, ho, hu, hx, ?_, ?_⟩
        · rw [Declares]
          exact ⟨hkr, .inl ⟨hr.1, hr.2, hruid, hrpart, q3, q4, q5, q6, hri, q7,
            DeclaresL.mono (fun _ _ _ h => h) (fun e t => (hI e t).1) _ _ q8⟩⟩
        · rw [Decl.blocks_mk] at ht ⊢
          exact ⟨hblock mode size q5 q6, ht.2⟩
      · rw [hs] at q1 ⊢; exact q1
      · exact NumIs.unique q2 hia.address
    · exact absurd h.1 hm1
    · exact absurd h.1 hm2

/-! ### A concrete address table -/

/-- `file:///a.xml`: a node `TOP` with a register `R` at 0x4 and the file `b.xml` at 0x100; `b.xml` has its outermost node at `ra`
and contains a bit-field `F` at 0x2 and a block `B` at 0x10. -/
def demoEnv (ra : String) : BuildEnv where
  open_ e _ := some [("file".toList, e)]
  file _ p :=
    if p = "a".toList then
      some (.el [(Attr.id.name, "TOP".toList)]
        [.el [(Attr.id.name, "R".toList), (Attr.address.name, "0x4".toList)] [],
         .el [(Attr.id.name, "M".toList), (Attr.address.name, "0x100".toList), (Attr.module_.name, "b".toList)] []])
    else if p = "b".toList then
      some (.el [(Attr.address.name, ra.toList)]
        [.el [(Attr.id.name, "F".toList), (Attr.address.name, "0x2".toList), (Attr.mask.name, "0xF0".toList)] [],
         .el [(Attr.id.name, "B".toList), (Attr.address.name, "0x10".toList), (Attr.mode.name, "block".toList),
           (Attr.size.name, "8".toList), (Attr.permission.name, "r".toList)] []])
    else none
  known _ := false
  sort := stableSort (fun n => n.d.addr.toNat)

theorem demoEnv_sorts (ra : String) : (demoEnv ra).Sorts := fun l => ⟨Node.stableSort_perm _ l, Node.stableSort_sorted _ l⟩

theorem demoEnv_protocols (ra : String) : (demoEnv ra).Protocols := by
  intro e cur fs h f hf
  cases h
  simp only [List.mem_singleton] at hf
  subst hf
  exact .inl rfl

/-- The declared table with `b.xml`'s outermost node at `r` and the inclusion at `p`. -/
def demoDecl (p : W) : Decl :=
  .mk "TOP".toList 0#32 0xFFFFFFFF#32 .readWrite .hierarchical 1#32 {}
    [.mk "R".toList 4#32 0xFFFFFFFF#32 .readWrite .hierarchical 1#32 {} [],
     .mk "M".toList p 0xFFFFFFFF#32 .readWrite .hierarchical 1#32 {}
       [.mk "F".toList 2#32 0xF0#32 .readWrite .hierarchical 1#32 {} [], .mk "B".toList 0x10#32 0xFFFFFFFF#32 .read .incremental 8#32 {} []]]

theorem numIs_of {s : Str} {dflt v : W} (h : parseU32 s = .ok v) : NumIs (some s) dflt v := (C38_exact s v).1 h

theorem permIs_of {s : Str} {p : Permission} (h : (s, p) ∈ permWords.map fun x => (x.1.toList, x.2)) : PermIs (some s) p := h
theorem modeIs_of {s : Str} {p : Mode} (h : (s, p) ∈ modeWords.map fun x => (x.1.toList, x.2)) : ModeIs (some s) p := h

theorem known_of {attrs : List (Str × Str)} (h : ∀ x ∈ attrs.map (·.1), x ∈ [Attr.id, .address, .parameters, .tags, .description,
    .permission, .mask, .mode, .size, .class_, .module_, .fwinfo].map Attr.name) : KnownAttrs attrs := by
  intro x hx
  have := h x.1 (List.mem_map_of_mem hx)
  rw [List.mem_map] at this
  obtain ⟨a, _, e⟩ := this
  exact ⟨a, e.symm⟩

/-- No descriptive attributes. -/
theorem infoIs_none {attrs : List (Str × Str)} (h : [Attr.class_, .tags, .description, .parameters, .fwinfo].all (fun a => (attr? attrs a).isNone) = true)
    (o i : Info) : InfoIs attrs o i ↔ i = { o with cls := [] } := by
  simp only [List.all_cons, List.all_nil, Bool.and_true, Bool.and_eq_true, Option.isNone_iff_eq_none] at h
  obtain ⟨h1, h2, h3, h4, h5⟩ := h
  constructor
  · rintro ⟨g1, g2, g3, g4, g5⟩
    rw [h1] at g1; rw [h2] at g2; rw [h3] at g3; rw [h4] at g4; rw [h5] at g5
    obtain ⟨ic, it, ide, ip, ifw⟩ := i
    simp only [joinText, Option.getD_none, if_true] at g1 g2 g3
    rcases g4 with ⟨_, g4⟩ | ⟨g4, _⟩
    · rcases g5 with ⟨_, g5⟩ | ⟨g5, _⟩
      · simp only at g4 g5; subst g1 g2 g3 g4 g5; rfl
      · exact absurd rfl g5
    · exact absurd rfl g4
  · rintro rfl
    exact ⟨by rw [h1]; rfl, by rw [h2]; simp [joinText], by rw [h3]; simp [joinText], .inl ⟨by rw [h4]; rfl, rfl⟩, .inl ⟨by rw [h5]; rfl, rfl⟩⟩

theorem demo_declared {ra : String} {r p : W} {J : W → W → W → Prop} (hr : parseU32 ra.toList = .ok r) (hj : J r 0x100#32 p) {cur : Str} :
    Declared (demoEnv ra) J "a".toList cur (demoDecl p) := by
  have hb : ∀ z, (Decl.mk [] z 0xFFFFFFFF#32 .readWrite .hierarchical 1#32 {}
       [.mk "F".toList 2#32 0xF0#32 .readWrite .hierarchical 1#32 {} [], .mk "B".toList 0x10#32 0xFFFFFFFF#32 .read .incremental 8#32 {} []]).BlocksOK := by
    intro z
    simp [Decl.BlocksOK, Decl.BlocksOKL, BlockOK]
  have hfile : Declared (demoEnv ra) J "b".toList "a".toList (.mk [] r 0xFFFFFFFF#32 .readWrite .hierarchical 1#32 {}
       [.mk "F".toList 2#32 0xF0#32 .readWrite .hierarchical 1#32 {} [], .mk "B".toList 0x10#32 0xFFFFFFFF#32 .read .incremental 8#32 {} []]) := by
    refine (Declared.iff _ _ _ _ _).2 ⟨_, "file".toList, "b".toList, _, rfl, rfl, rfl, ?_, hb r⟩
    rw [Declares]
    refine ⟨known_of (by simp), .inl ⟨by simp only [not_has_iff]; rfl, by simp only [not_has_iff]; rfl, ⟨rfl, rfl⟩,
      numIs_of hr, rfl, rfl, rfl, rfl, (infoIs_none rfl _ _).2 rfl, by simp, ?_⟩⟩
    simp only [DeclaresL, and_true]
    refine ⟨?_, ?_⟩
    · rw [Declares]
      exact ⟨known_of (by decide), .inr (.inl ⟨by unfold Has; decide, by simp only [not_has_iff]; decide, by simp only [not_has_iff]; decide,
        by simp only [not_has_iff]; decide, by simp only [not_has_iff]; decide, ⟨rfl, by unfold IdOK; decide⟩, numIs_of (by decide +kernel),
        numIs_of (by decide +kernel), rfl, rfl, rfl, (infoIs_none (by decide) _ _).2 rfl, rfl, rfl⟩)⟩
    · rw [Declares]
      exact ⟨known_of (by decide), .inl ⟨by simp only [not_has_iff]; decide, by simp only [not_has_iff]; decide,
        ⟨rfl, by unfold IdOK; decide⟩, numIs_of (by decide +kernel), rfl, permIs_of (by decide), modeIs_of (by decide),
        ⟨by decide, numIs_of (by decide +kernel)⟩, (infoIs_none (by decide) _ _).2 rfl, by simp, by rw [DeclaresL]; trivial⟩⟩
  refine (Declared.iff _ _ _ _ _).2 ⟨_, "file".toList, "a".toList, _, rfl, rfl, rfl, ?_, ?_⟩
  · unfold demoDecl
    rw [Declares]
    refine ⟨known_of (by decide), .inl ⟨by simp only [not_has_iff]; decide, by simp only [not_has_iff]; decide,
      ⟨rfl, by unfold IdOK; decide⟩, rfl, rfl, rfl, rfl, rfl, (infoIs_none (by decide) _ _).2 rfl, by simp, ?_⟩⟩
    simp only [DeclaresL, and_true]
    refine ⟨?_, ?_⟩
    · rw [Declares]
      exact ⟨known_of (by decide), .inl ⟨by simp only [not_has_iff]; decide, by simp only [not_has_iff]; decide,
        ⟨rfl, by unfold IdOK; decide⟩, numIs_of (by decide +kernel), rfl, rfl, rfl, rfl, (infoIs_none (by decide) _ _).2 rfl, by simp, by rw [DeclaresL]; trivial⟩⟩
    · rw [Declares]
      exact ⟨known_of (by decide), .inr (.inr ⟨by unfold Has; decide, by simp only [not_has_iff]; decide,
        by simp only [not_has_iff]; decide, by simp only [not_has_iff]; decide, by simp only [not_has_iff]; decide, "b".toList, [], r,
        0x100#32, {}, rfl, hfile, ⟨rfl, by unfold IdOK; decide⟩, numIs_of (by decide +kernel), hj, (infoIs_none (by decide) _ _).2 rfl⟩)⟩
  · simp [demoDecl, Decl.BlocksOK, Decl.BlocksOKL, BlockOK]

/-- Non-trivial instance of `C32_sum_partial` and `C32_complete`: `b.xml`'s outermost node at 0x1000. -/
example : ∃ F n c', getNodeTree (demoEnv "0x1000") true F "a".toList [] [] = .ok n c' ∧
    n.table.Perm ((demoDecl 0x1100#32).rows 0#32) ∧
    (∃ r ∈ n.table, r.path = ["TOP".toList, "M".toList, "B".toList] ∧ r.addr = 0x1110#32) := by
  have hd : Declared (demoEnv "0x1000") disjJ "a".toList [] (demoDecl 0x1100#32) :=
    demo_declared (r := 0x1000#32) (by decide +kernel) ⟨by decide, by decide⟩
  obtain ⟨F, h⟩ := (C32_sum_partial (demoEnv_sorts _) (demoEnv_protocols _) (Coherent.nil _) hd).2.1
  obtain ⟨n, c', he, hp⟩ := h F (Nat.le_refl F)
  refine ⟨F, n, c', he, hp, ⟨["TOP".toList, "M".toList, "B".toList], 0x1110#32, .incremental, 0xFFFFFFFF#32, .read, 8#32, {}⟩, ?_, rfl, rfl⟩
  rw [hp.mem_iff]
  decide +kernel

/-- **C32 is violated**: with the outermost node of the included file at 0x100 and the including element at 0x100, the sum is 0x200, but
the nodes of the file end up at 0x100. -/
theorem C32_violated_or : ∃ (env : BuildEnv) (e : Str) (t : Decl) (F : Nat) (n : Node) (c : NodeCache), env.Sorts ∧ env.Protocols ∧
    Declared env sumJ e [] t ∧ getNodeTree env true F e [] [] = .ok n c ∧ ¬ n.table.Perm (t.rows 0#32) := by
  have hd : Declared (demoEnv "0x100") sumJ "a".toList [] (demoDecl 0x200#32) :=
    demo_declared (r := 0x100#32) (by decide +kernel) (by unfold sumJ; decide)
  have ho : Declared (demoEnv "0x100") orJ "a".toList [] (demoDecl 0x100#32) :=
    demo_declared (r := 0x100#32) (by decide +kernel) (by unfold orJ; decide)
  obtain ⟨F, h⟩ := C32_complete (demoEnv_sorts _) (demoEnv_protocols _) (Coherent.nil _) ho
  obtain ⟨n, c', he, hp⟩ := h F (Nat.le_refl F)
  refine ⟨_, _, _, F, n, c', demoEnv_sorts _, demoEnv_protocols _, hd, he, fun hq => ?_⟩
  have := (hp.symm.trans hq).mem_iff (a := ⟨["TOP".toList, "M".toList], 0x100#32, .hierarchical, 0xFFFFFFFF#32, .readWrite, 1#32, {}⟩)
  exact absurd this (by decide +kernel)

/-- Non-trivial instance of `C32_inline`: the file `b.xml` in `a.xml`. -/
example (t : Decl) (ht : t.BlocksOK) :
    Declares sumJ (Declared (demoEnv "0x1000") sumJ) false "a".toList
      (.el [(Attr.id.name, "M".toList), (Attr.address.name, "0x100".toList), (Attr.module_.name, "b".toList)] []) t ↔
    Declares sumJ (Declared (demoEnv "0x1000") sumJ) false "a".toList
      (.el [(Attr.id.name, "M".toList), (Attr.address.name, "0x1100".toList)]
        [.el [(Attr.id.name, "F".toList), (Attr.address.name, "0x2".toList), (Attr.mask.name, "0xF0".toList)] [],
         .el [(Attr.id.name, "B".toList), (Attr.address.name, "0x10".toList), (Attr.mode.name, "block".toList),
           (Attr.size.name, "8".toList), (Attr.permission.name, "r".toList)] []]) t :=
  C32_inline (env := demoEnv "0x1000") (cur := "a".toList) (attrs := [(Attr.id.name, "M".toList), (Attr.address.name, "0x100".toList), (Attr.module_.name, "b".toList)])
    (ia := [(Attr.id.name, "M".toList), (Attr.address.name, "0x1100".toList)]) (rattrs := [(Attr.address.name, "0x1000".toList)]) (rpart := 0x1000#32) (off := 0x100#32) (m := "b".toList)
    (proto := "file".toList) (path := "b".toList) (ruid := []) (known_of (by decide)) rfl
    ⟨by unfold Has; decide, by unfold Has; decide, by unfold Has; decide, by unfold Has; decide⟩ (by unfold Has; decide)
    rfl rfl rfl (known_of (by decide)) ⟨by unfold Has; decide, by unfold Has; decide⟩ ⟨rfl, rfl⟩ (numIs_of (by decide +kernel))
    (numIs_of (by decide +kernel)) ⟨known_of (by decide), rfl, numIs_of (by decide +kernel), rfl, rfl, rfl, rfl, rfl, fun i => by
      rw [infoIs_none (by decide)]; simp only [infoIs_none (attrs := [(Attr.address.name, "0x1000".toList)]) (by decide), infoIs_none (attrs := [(Attr.id.name, "M".toList), (Attr.address.name, "0x100".toList), (Attr.module_.name, "b".toList)]) (by decide)]; simp⟩ (fun _ => rfl)
    (fun mo z hm _ hi => by cases hm; cases hi) t ht

end Verif
