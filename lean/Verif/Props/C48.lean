import Verif.Props.C32
/-!
# C48: building comes to an end; C33 for trees that the builder returns
-/

set_option autoImplicit false
set_option linter.unusedSimpArgs false

namespace Verif
open Spec

/-! ## C48 -/

mutual
/-- The values of the `module` attributes in an address file. -/
def Xml.includes : Xml → List Str
  | .el attrs kids => (attr? attrs .module_).toList ++ Xml.includesL kids
def Xml.includesL : List Xml → List Str
  | [] => []
  | x :: xs => x.includes ++ Xml.includesL xs
end

/-- Files do not include each other in a circle: every file has a rank, larger than those of the files it includes. -/
def Acyclic (env : BuildEnv) (rk : Str → Nat) : Prop :=
  ∀ proto path x, env.file proto path = some x → ∀ m ∈ x.includes, ∀ fs, env.open_ m path = some fs → ∀ f ∈ fs,
    env.file f.1 f.2 ≠ none → rk f.2 < rk path

theorem Bld.bind_loops {α β : Type} {x : Bld α} {f : α → Bld β} {c : NodeCache} (h : Bld.bind x f c = .loops) :
    x c = .loops ∨ ∃ a c', x c = .ok a c' ∧ f a c' = .loops := by
  unfold Bld.bind at h
  cases hx : x c with
  | ok a c' => rw [hx] at h; exact .inr ⟨a, c', rfl, h⟩
  | exc e c' => rw [hx] at h; cases h
  | loops => exact .inl rfl

theorem Bld.lift_loops {α : Type} {x : Except BuildExc α} {c : NodeCache} (h : Bld.lift x c = .loops) : False := by
  unfold Bld.lift at h; cases x <;> cases h

mutual
theorem create_loops {env : BuildEnv} {inc : Str → Str → Bld Node} (top : Bool) (cur : Str) : ∀ (x : Xml) (c : NodeCache),
    x.create env inc top cur c = .loops → ∃ m ∈ x.includes, ∃ c', inc m cur c' = .loops
  | .el attrs kids => by
    intro c h
    generalize hf : Xml.create env inc top cur (.el attrs kids) = f at h
    rw [Xml.create] at hf
    rw [Xml.includes]
    split at hf <;> subst hf
    · rcases Bld.bind_loops h with h | ⟨d, c1, h1, h2⟩
      · exact (Bld.lift_loops h).elim
      · split at h2
        · split at h2 <;> cases h2
        · rcases Bld.bind_loops h2 with h2 | ⟨ks, c2, h3, h4⟩
          · obtain ⟨m, hm, hh⟩ := createKids_loops cur kids c1 h2
            exact ⟨m, by simp [hm], hh⟩
          · cases h4
    · split at h
      · rcases Bld.bind_loops h with h | ⟨d, c1, h1, h2⟩
        · exact (Bld.lift_loops h).elim
        · cases h2
      · cases h
    · rename_i hk
      obtain ⟨_, _, h1, _⟩ := (kindOf_module top attrs).1 hk
      obtain ⟨m, hm⟩ := (has_iff attrs .module_).1 h1
      rcases Bld.bind_loops h with h | ⟨d, c1, h1, h2⟩
      · refine ⟨m, by simp [hm], c, ?_⟩
        rw [hm] at h; exact h
      · rcases Bld.bind_loops h2 with h2 | ⟨d, c1, h1, h3⟩
        · exact (Bld.lift_loops h2).elim
        · cases h3
    · cases h
theorem createKids_loops {env : BuildEnv} {inc : Str → Str → Bld Node} (cur : Str) : ∀ (l : List Xml) (c : NodeCache),
    Xml.createKids env inc cur l c = .loops → ∃ m ∈ Xml.includesL l, ∃ c', inc m cur c' = .loops
  | [] => by intro c h; rw [Xml.createKids] at h; cases h
  | x :: xs => by
    intro c h
    rw [Xml.createKids] at h
    rw [Xml.includesL]
    rcases Bld.bind_loops h with h | ⟨d, c1, h1, h2⟩
    · obtain ⟨m, hm, hh⟩ := create_loops false cur x c h
      exact ⟨m, by simp [hm], hh⟩
    · rcases Bld.bind_loops h2 with h2 | ⟨d, c1, h1, h3⟩
      · obtain ⟨m, hm, hh⟩ := createKids_loops cur xs _ h2
        exact ⟨m, by simp [hm], hh⟩
      · cases h3
end

theorem loadFiles_loops {env : BuildEnv} {inc : Str → Str → Bld Node} (fs : List (Str × Str)) : ∀ (c : NodeCache),
    loadFiles env false inc fs c = .loops → ∃ f ∈ fs, ∃ x, env.file f.1 f.2 = some x ∧ ∃ m ∈ x.includes, ∃ c', inc m f.2 c' = .loops := by
  induction fs with
  | nil => intro c h; rw [loadFiles] at h; cases h
  | cons f fs ih =>
    intro c h
    rw [loadFiles_false] at h
    rcases Bld.bind_loops h with h | ⟨d, c1, h1, h2⟩
    · refine ⟨f, by simp, ?_⟩
      unfold loadOne at h
      cases hf : env.file f.1 f.2 with
      | none => rw [hf] at h; cases h
      | some x =>
        rw [hf] at h
        rcases Bld.bind_loops h with h | ⟨d, c1, h1, h2⟩
        · rcases Bld.bind_loops h with h | ⟨d, c1, h1, h2⟩
          · exact ⟨x, rfl, create_loops true f.2 x c h⟩
          · exact (Bld.lift_loops h2).elim
        · cases h2
    · rcases Bld.bind_loops h2 with h2 | ⟨d, c1, h1, h3⟩
      · obtain ⟨g, hg, hh⟩ := ih _ h2
        exact ⟨g, by simp [hg], hh⟩
      · cases h3

theorem getNodeTree_finite {env : BuildEnv} {rk : Str → Nat} (ha : Acyclic env rk) (F : Nat) : ∀ e cur c,
    (∀ fs, env.open_ e cur = some fs → ∀ f ∈ fs, env.file f.1 f.2 ≠ none → rk f.2 < F) →
    getNodeTree env false (F + 1) e cur c ≠ .loops := by
  induction F with
  | zero =>
    intro e cur c hr h
    rw [getNodeTree] at h
    cases ho : env.open_ e cur with
    | none => rw [ho] at h; cases h
    | some fs =>
      rw [ho] at h
      rcases Bld.bind_loops h with h | ⟨ns, c1, h1, h2⟩
      · obtain ⟨f, hf, x, hx, _⟩ := loadFiles_loops fs c h
        exact absurd (hr fs ho f hf (by rw [hx]; simp)) (by omega)
      · split at h2 <;> cases h2
  | succ F ih =>
    intro e cur c hr h
    rw [getNodeTree] at h
    cases ho : env.open_ e cur with
    | none => rw [ho] at h; cases h
    | some fs =>
      rw [ho] at h
      rcases Bld.bind_loops h with h | ⟨ns, c1, h1, h2⟩
      · obtain ⟨f, hf, x, hx, m, hm, c', hl⟩ := loadFiles_loops fs c h
        refine ih m f.2 c' ?_ hl
        intro gs hg g hgm hgf
        have h1 := ha f.1 f.2 x hx m hm gs hg g hgm hgf
        have h2 := hr fs ho f hf (by rw [hx]; simp)
        omega
      · split at h2 <;> cases h2

/-- **C48**: if no file includes itself directly or through other files, building comes to an end, with a tree or an exception;
the nesting needed is bounded by the rank of the files named.
Missing for C48: files that include each other in a circle, for which it fails (`C48_violated`). -/
theorem C48_ends_partial {env : BuildEnv} {rk : Str → Nat} (hp : env.Protocols) (ha : Acyclic env rk) {c : NodeCache} (hc : Coherent env c)
    {e cur : Str} {F : Nat} (hr : ∀ fs, env.open_ e cur = some fs → ∀ f ∈ fs, env.file f.1 f.2 ≠ none → rk f.2 < F) :
    (∃ n c', getNodeTree env true (F + 1) e cur c = .ok n c') ∨ ∃ x c', getNodeTree env true (F + 1) e cur c = .exc x c' := by
  have h := (C47_cache hp hc (F + 1) e cur).2.2 (getNodeTree_finite ha F e cur [] hr)
  cases hg : getNodeTree env true (F + 1) e cur c with
  | ok n c' => exact .inl ⟨n, c', rfl⟩
  | exc x c' => exact .inr ⟨x, c', rfl⟩
  | loops => exact absurd hg h

/-- Non-trivial instance: the file `a` includes `b`. -/
example : (∃ n c', getNodeTree (demoEnv "0x1000") true 3 "a".toList [] [] = .ok n c') ∨
    ∃ x c', getNodeTree (demoEnv "0x1000") true 3 "a".toList [] [] = .exc x c' := by
  refine C48_ends_partial (rk := fun p => if p = "a".toList then 1 else 0) (demoEnv_protocols _) ?_ (Coherent.nil _) (F := 2) ?_
  · intro proto path x hx m hm fs ho f hf hne
    cases ho
    simp only [List.mem_singleton] at hf
    subst hf
    simp only [demoEnv] at hx
    split at hx
    · rename_i hp
      subst hp
      cases hx
      simp [Xml.includes, Xml.includesL, attr?, Attr.name] at hm
      subst hm
      decide
    · split at hx
      · cases hx
        simp [Xml.includes, Xml.includesL, attr?, Attr.name] at hm
      · cases hx
  · intro fs _ f _ _
    show (if _ then _ else _) < _
    split <;> omega

/-- A file that includes itself. -/
def loopEnv : BuildEnv where
  open_ e _ := some [("file".toList, e)]
  file _ _ := some (.el [] [.el [(Attr.id.name, "A".toList), (Attr.module_.name, "a".toList)] []])
  known _ := false
  sort l := l

/-- **C48 is violated**: a file that includes itself is read again and again, without end (the code runs out of stack), because a
file enters the cache only after it has been built. -/
theorem C48_violated (F : Nat) (e cur : Str) : getNodeTree loopEnv true F e cur [] = .loops := by
  induction F generalizing e cur with
  | zero => rw [getNodeTree]
  | succ F ih =>
    rw [getNodeTree]
    have hk0 : kindOf true [] = .rule 0 := by decide +kernel
    have hk2 : kindOf false [(Attr.id.name, "A".toList), (Attr.module_.name, "a".toList)] = .rule 2 := by decide +kernel
    have hcreate : (Xml.el [] [.el [(Attr.id.name, "A".toList), (Attr.module_.name, "a".toList)] []]).create loopEnv
        (getNodeTree loopEnv true F) true e [] = .loops := by
      rw [Xml.create, hk0]
      simp only
      have hpd : ∃ d, plainData (!true) [] e = .ok d ∧ d.mode = .hierarchical := ⟨_, rfl, rfl⟩
      obtain ⟨d, hd, hm⟩ := hpd
      unfold Bld.bind
      simp only [Bld.lift, hd, hm, reduceCtorEq, if_false]
      rw [Xml.createKids]
      unfold Bld.bind
      rw [Xml.create, hk2]
      unfold Bld.bind
      have hat : attr? [(Attr.id.name, "A".toList), (Attr.module_.name, "a".toList)] .module_ = some "a".toList := by decide
      simp only [hat, Option.getD_some, ih]
    have hb : buildFile loopEnv (getNodeTree loopEnv true F) e
        (.el [] [.el [(Attr.id.name, "A".toList), (Attr.module_.name, "a".toList)] []]) [] = .loops := by
      unfold buildFile Bld.bind
      rw [hcreate]
    have hone : loadOneC loopEnv (getNodeTree loopEnv true F) ("file".toList, e) [] = .loops := by
      unfold loadOneC
      simp only [List.lookup_nil, loopEnv]
      simp only [loopEnv] at hb
      rw [hb]
    simp only [loopEnv]
    unfold Bld.bind
    have := loadFiles_true loopEnv (getNodeTree loopEnv true F) ("file".toList, e) []
    simp only [loopEnv] at this hone
    rw [this]
    unfold Bld.bind
    rw [hone]

/-! ## C33 for trees that come from the builder -/

/-- All ids of a path below the first are good. -/
def TailOK (r : Row) : Prop := ∀ u ∈ r.path.tail, u ≠ [] ∧ '.' ∉ u

theorem nodup_of_map {α β : Type} (f : α → β) {l : List α} (h : (l.map f).Nodup) : l.Nodup :=
  (List.pairwise_map.1 h).imp (fun {a b} hne (e : a = b) => hne (congrArg f e))

theorem goodIds_of_table (n : Node) (h : ∀ r ∈ n.table, TailOK r) : n.GoodIds := by
  induction n using Node.ind with
  | h d kids ih =>
    rw [Node.table_mk] at h
    have hk : ∀ k ∈ kids, ∀ r ∈ k.table, ∀ u ∈ r.path, u ≠ [] ∧ '.' ∉ u := by
      intro k hk r hr u hu
      refine h (r.under d.uid) ?_ u hu
      refine List.mem_cons_of_mem _ (List.mem_map_of_mem ?_)
      exact List.mem_flatMap.2 ⟨k, hk, hr⟩
    refine .mk (fun k hkk => ?_) (fun k hkk => ih k hkk (fun r hr u hu => hk k hkk r hr u (List.mem_of_mem_tail hu)))
    have := hk k hkk ⟨[k.d.uid], k.d.addr, k.d.mode, k.d.mask, k.d.perm, k.d.size, k.d.info⟩ (by
      rw [← Node.eta k, Node.table_mk]; exact List.mem_cons_self) k.d.uid (by simp)
    exact this

theorem uniqueIds_of_table (n : Node) (h : (n.table.map Row.path).Nodup) : n.UniqueIds := by
  induction n using Node.ind with
  | h d kids ih =>
    rw [Node.table_mk, List.map_cons, List.nodup_cons] at h
    have h2 := h.2
    rw [List.map_map] at h2
    have e : Row.path ∘ Row.under d.uid = (fun l => d.uid :: l) ∘ Row.path := rfl
    rw [e, ← List.map_map] at h2
    have h3 : ((kids.flatMap Node.table).map Row.path).Nodup := by
      exact nodup_of_map (fun l => d.uid :: l) h2
    rw [List.map_flatMap] at h3
    have key : ∀ l : List Node, (l.map (fun k => [k.d.uid])).Sublist (l.flatMap fun k => k.table.map Row.path) := by
      intro l
      induction l with
      | nil => exact .slnil
      | cons k l ihl =>
        rw [List.map_cons, List.flatMap_cons]
        have : k.table.map Row.path = [k.d.uid] :: (k.table.map Row.path).tail := by
          rw [← Node.eta k, Node.table_mk]; rfl
        rw [this, List.cons_append]
        exact .cons_cons _ (ihl.trans (List.sublist_append_right _ _))
    refine .mk ?_ ?_
    · have := h3.sublist (key kids)
      have e2 : kids.map (fun k => [k.d.uid]) = (kids.map (fun k => k.d.uid)).map (fun u => [u]) := by rw [List.map_map]; rfl
      rw [e2] at this
      exact nodup_of_map _ this
    · intro k hk
      refine ih k hk (h3.sublist ?_)
      obtain ⟨a, b, rfl⟩ := List.append_of_mem hk
      rw [List.flatMap_append, List.flatMap_cons]
      exact (List.sublist_append_left _ _).trans (List.sublist_append_right _ _)

mutual
theorem Declares.ids {J : W → W → W → Prop} {I : Str → Str → Decl → Prop} {cur : Str}
    (hI : ∀ e cur t, I e cur t → ∀ b, ∀ r ∈ t.rows b, TailOK r) (top : Bool) : ∀ (x : Xml) (t : Decl), Declares J I top cur x t →
      (top = false → IdOK t.uid) ∧ ∀ b, ∀ r ∈ t.rows b, TailOK r
  | .el attrs kids, .mk uid part mask perm mode size info ks => by
    intro h
    rw [Declares] at h
    have hidok : ∀ dflt, IdIs top (attr? attrs .id) dflt uid → top = false → IdOK uid := by
      intro dflt h ht
      unfold IdIs at h
      cases ha : attr? attrs .id with
      | none => rw [ha, ht] at h; cases h.1
      | some s => rw [ha] at h; rw [h.1]; exact h.2
    obtain ⟨hk, h | h | h⟩ := h
    · obtain ⟨h1, h2, p1, p2, p3, p4, p5, p6, p7, h3, h4⟩ := h
      refine ⟨hidok _ p1, fun b r hr => ?_⟩
      rw [Decl.rows_mk, List.mem_cons] at hr
      rcases hr with rfl | hr
      · intro u hu; simp at hu
      · rw [List.mem_map] at hr
        obtain ⟨r', hr', rfl⟩ := hr
        rw [List.mem_flatMap] at hr'
        obtain ⟨k, hk, hr'⟩ := hr'
        exact DeclaresL.ids hI kids ks h4 k hk _ r' hr'
    · obtain ⟨_, _, _, _, _, p1, _, _, _, _, _, _, rfl, rfl⟩ := h
      refine ⟨hidok _ p1, fun b r hr => ?_⟩
      rw [Decl.rows_mk] at hr
      simp only [List.flatMap_nil, List.map_nil, List.mem_singleton] at hr
      subst hr
      intro u hu; simp at hu
    · obtain ⟨_, _, _, _, _, m, ru, rp, off, ri, _, hr, p1, _, _, _⟩ := h
      refine ⟨hidok _ p1, fun b r hr' => ?_⟩
      have := hI _ _ _ hr (b + part - rp)
      rw [Decl.rows_mk, List.mem_cons] at hr'
      rcases hr' with rfl | hr'
      · intro u hu; simp at hu
      · rw [List.mem_map] at hr'
        obtain ⟨r', hr', rfl⟩ := hr'
        refine this (r'.under ru) ?_
        rw [Decl.rows_mk, BitVec.sub_add_cancel]
        exact List.mem_cons_of_mem _ (List.mem_map_of_mem hr')
theorem DeclaresL.ids {J : W → W → W → Prop} {I : Str → Str → Decl → Prop} {cur : Str}
    (hI : ∀ e cur t, I e cur t → ∀ b, ∀ r ∈ t.rows b, TailOK r) : ∀ (l : List Xml) (ts : List Decl), DeclaresL J I cur l ts →
      ∀ t ∈ ts, ∀ b, ∀ r ∈ t.rows b, ∀ u ∈ r.path, u ≠ [] ∧ '.' ∉ u
  | [], [] => by intro _ t ht; simp at ht
  | x :: xs, t :: ts => by
    intro h
    rw [DeclaresL] at h
    intro t' ht' b r hr u hu
    rw [List.mem_cons] at ht'
    rcases ht' with rfl | ht'
    · obtain ⟨h1, h2⟩ := Declares.ids hI false x t' h.1
      have hhead : r.path.head? = some t'.uid := by
        obtain ⟨uid, part, mask, perm, mode, size, info, ks⟩ := t'
        rw [Decl.rows_mk, List.mem_cons] at hr
        rcases hr with rfl | hr
        · rfl
        · rw [List.mem_map] at hr
          obtain ⟨r', _, rfl⟩ := hr
          rfl
      cases hp : r.path with
      | nil => rw [hp] at hu; simp at hu
      | cons v vs =>
        rw [hp] at hu hhead
        simp only [List.head?_cons, Option.some.injEq] at hhead
        rw [List.mem_cons] at hu
        rcases hu with rfl | hu
        · rw [hhead]; exact ⟨(h1 rfl).1, (h1 rfl).2.1⟩
        · exact h2 b r hr u (by rw [hp]; exact hu)
    · exact DeclaresL.ids hI xs ts h.2 t' ht' b r hr u hu
  | [], t :: ts => by intro h; simp [DeclaresL] at h
  | x :: xs, [] => by intro h; simp [DeclaresL] at h
end

theorem FileDeclares.ids {env : BuildEnv} {J : W → W → W → Prop} (D : Nat) : ∀ e cur t, FileDeclares env J D e cur t →
    ∀ b, ∀ r ∈ t.rows b, TailOK r := by
  induction D with
  | zero => intro e cur t h; rw [FileDeclares] at h; exact h.elim
  | succ D ih =>
    intro e cur t h
    rw [FileDeclares] at h
    obtain ⟨fs, proto, path, x, ho, hu, hx, ht, hb⟩ := h
    exact (Declares.ids ih true x t ht).2

/-- **C33** for trees from address files: the ids below the top are always such that paths can be taken apart again, and if no two
declared nodes have the same path, siblings have different ids. So `C33_lookup`, `C33_listed`, `C33_distinct`, `C33_found` apply. -/
theorem C33_built {env : BuildEnv} (hs : env.Sorts) (hp : env.Protocols) {c c' : NodeCache} (hc : Coherent env c) {F : Nat}
    {e cur : Str} {n : Node} (h : getNodeTree env true F e cur c = .ok n c') :
    n.GoodIds ∧ ∃ t, Declared env orJ e cur t ∧ (((t.rows 0#32).map Row.path).Nodup → n.UniqueIds) := by
  obtain ⟨t, ⟨D, hD⟩, hperm⟩ := C32_sound_partial hs hp hc h
  refine ⟨goodIds_of_table n ?_, t, ⟨D, hD⟩, fun hn => uniqueIds_of_table n ?_⟩
  · intro r hr
    exact FileDeclares.ids D e cur t hD 0#32 r (hperm.mem_iff.1 hr)
  · exact ((hperm.map Row.path).nodup_iff).2 hn

/-- The tree that comes out. -/
def BOut.tree? : BOut Node → Option Node
  | .ok n _ => some n
  | _ => none

/-- An address file in which two siblings have the same id. -/
def dupEnv : BuildEnv where
  open_ e _ := some [("file".toList, e)]
  file _ _ := some (.el [] [.el [(Attr.id.name, "a".toList), (Attr.address.name, "1".toList)] [],
    .el [(Attr.id.name, "a".toList), (Attr.address.name, "2".toList)] [.el [(Attr.id.name, "b".toList)] []]])
  known _ := false
  sort := stableSort (fun n => n.d.addr.toNat)

/-- **C33** is violated for address tables in which siblings have the same id, which the builder accepts: `getNodes` lists `a.b`, but
`getNode("a.b")` throws; and `a` is listed twice. -/
theorem C33_violated_built :
    ((getNodeTree dupEnv true 2 "f".toList [] []).tree?).map (fun n => (n.getNodes, n.hasNode "a.b".toList)) =
      some (["a".toList, "a".toList, "a.b".toList], false) := by
  decide +kernel

end Verif
