import Verif.Model.Builder
/-!
# Building with and without the cache of address files
-/

set_option autoImplicit false
set_option linter.unusedSimpArgs false

namespace Verif

/-- The same outcome with another cache. -/
def BOut.withCache {α : Type} (c : NodeCache) : BOut α → BOut α
  | .ok a _ => .ok a c
  | .exc e _ => .exc e c
  | .loops => .loops

namespace Bld

/-- The cache is neither looked at nor changed. -/
def Pure {α : Type} (x : Bld α) : Prop := ∀ c, x c = (x []).withCache c

/-- If `x` comes to an end, so does `y`, with the same outcome. -/
def Le {α : Type} (x y : Bld α) : Prop := ∀ c, x c = .loops ∨ y c = x c

theorem Pure.ok {α : Type} (a : α) : Pure (fun c => .ok a c) := fun _ => rfl
theorem Pure.exc {α : Type} (e : BuildExc) : Pure (α := α) (fun c => .exc e c) := fun _ => rfl
theorem Pure.loops {α : Type} : Pure (α := α) (fun _ => .loops) := fun _ => rfl
theorem Pure.lift {α : Type} (x : Except BuildExc α) : Pure (lift x) := by intro c; cases x <;> rfl

theorem Pure.bind {α β : Type} {x : Bld α} {f : α → Bld β} (hx : Pure x) (hf : ∀ a, Pure (f a)) : Pure (Bld.bind x f) := by
  intro c
  unfold Bld.bind
  have h0 := hx []
  rw [hx c]
  cases h : x [] with
  | ok a c' =>
    rw [h] at h0
    simp only [BOut.withCache, BOut.ok.injEq, true_and] at h0
    subst h0
    exact hf a c
  | exc e c' => rfl
  | loops => rfl

theorem Le.refl {α : Type} (x : Bld α) : Le x x := fun _ => .inr rfl

theorem Le.bind {α β : Type} {x y : Bld α} {f g : α → Bld β} (hx : Le x y) (hf : ∀ a, Le (f a) (g a)) : Le (Bld.bind x f) (Bld.bind y g) := by
  intro c
  unfold Bld.bind
  rcases hx c with h | h
  · left; rw [h]
  · rw [h]
    cases x c with
    | ok a c' => exact hf a c'
    | exc e c' => right; rfl
    | loops => left; rfl

end Bld

open Bld

mutual
theorem create_pure {env : BuildEnv} {inc : Str → Str → Bld Node} (h : ∀ e c, Pure (inc e c)) (top : Bool) (cur : Str) :
    ∀ x : Xml, Pure (x.create env inc top cur)
  | .el attrs kids => by
    rw [Xml.create]
    split
    · refine Pure.bind (.lift _) fun d => ?_
      split
      · split <;> intro c <;> rfl
      · exact Pure.bind (createKids_pure h cur kids) fun _ => .ok _
    · split
      · exact Pure.bind (.lift _) fun d => .ok _
      · exact .exc _
    · exact Pure.bind (h _ _) fun n => Pure.bind (.lift _) fun d => .ok _
    · exact .exc _
theorem createKids_pure {env : BuildEnv} {inc : Str → Str → Bld Node} (h : ∀ e c, Pure (inc e c)) (cur : Str) :
    ∀ l : List Xml, Pure (Xml.createKids env inc cur l)
  | [] => by rw [Xml.createKids]; exact .ok _
  | x :: xs => by
    rw [Xml.createKids]
    exact Pure.bind (create_pure h false cur x) fun n => Pure.bind (createKids_pure h cur xs) fun ns => .ok _
end

mutual
theorem create_le {env : BuildEnv} {inc inc' : Str → Str → Bld Node} (h : ∀ e c, Le (inc e c) (inc' e c)) (top : Bool) (cur : Str) :
    ∀ x : Xml, Le (x.create env inc top cur) (x.create env inc' top cur)
  | .el attrs kids => by
    rw [Xml.create, Xml.create]
    split
    · refine Le.bind (.refl _) fun d => ?_
      split
      · exact .refl _
      · exact Le.bind (createKids_le h cur kids) fun _ => .refl _
    · exact .refl _
    · exact Le.bind (h _ _) fun n => .refl _
    · exact .refl _
theorem createKids_le {env : BuildEnv} {inc inc' : Str → Str → Bld Node} (h : ∀ e c, Le (inc e c) (inc' e c)) (cur : Str) :
    ∀ l : List Xml, Le (Xml.createKids env inc cur l) (Xml.createKids env inc' cur l)
  | [] => by rw [Xml.createKids, Xml.createKids]; exact .refl _
  | x :: xs => by
    rw [Xml.createKids, Xml.createKids]
    exact Le.bind (create_le h false cur x) fun n => Le.bind (createKids_le h cur xs) fun ns => .refl _
end

theorem buildFile_pure {env : BuildEnv} {inc : Str → Str → Bld Node} (h : ∀ e c, Pure (inc e c)) (path : Str) (x : Xml) :
    Pure (buildFile env inc path x) := Pure.bind (create_pure h true path x) fun _ => .lift _

theorem buildFile_le {env : BuildEnv} {inc inc' : Str → Str → Bld Node} (h : ∀ e c, Le (inc e c) (inc' e c)) (path : Str) (x : Xml) :
    Le (buildFile env inc path x) (buildFile env inc' path x) := Le.bind (create_le h true path x) fun _ => .refl _

/-- One file, without the cache. -/
def loadOne (env : BuildEnv) (inc : Str → Str → Bld Node) (f : Str × Str) : Bld (List Node) :=
  match env.file f.1 f.2 with
  | none => fun c => .ok [] c
  | some x => Bld.bind (buildFile env inc f.2 x) fun n => fun c => .ok [n] c

theorem loadFiles_false (env : BuildEnv) (inc : Str → Str → Bld Node) (f : Str × Str) (fs : List (Str × Str)) :
    loadFiles env false inc (f :: fs) =
      Bld.bind (loadOne env inc f) fun ns => Bld.bind (loadFiles env false inc fs) fun ms => fun c => .ok (ns ++ ms) c := by
  obtain ⟨proto, path⟩ := f
  rw [loadFiles]
  congr 1
  funext c
  simp only [Bool.false_eq_true, if_false, loadOne, Bld.bind]
  cases env.file proto path with
  | none => rfl
  | some x => simp only [Bld.bind]; cases buildFile env inc path x c <;> rfl

theorem loadOne_pure {env : BuildEnv} {inc : Str → Str → Bld Node} (h : ∀ e c, Pure (inc e c)) (f : Str × Str) : Pure (loadOne env inc f) := by
  unfold loadOne
  split
  · exact .ok _
  · exact Pure.bind (buildFile_pure h _ _) fun _ => .ok _

theorem loadOne_le {env : BuildEnv} {inc inc' : Str → Str → Bld Node} (h : ∀ e c, Le (inc e c) (inc' e c)) (f : Str × Str) :
    Le (loadOne env inc f) (loadOne env inc' f) := by
  unfold loadOne
  split
  · exact .refl _
  · exact Le.bind (buildFile_le h _ _) fun _ => .refl _

theorem loadFiles_pure {env : BuildEnv} {inc : Str → Str → Bld Node} (h : ∀ e c, Pure (inc e c)) (fs : List (Str × Str)) :
    Pure (loadFiles env false inc fs) := by
  induction fs with
  | nil => rw [loadFiles]; exact .ok _
  | cons f fs ih => rw [loadFiles_false]; exact Pure.bind (loadOne_pure h f) fun _ => Pure.bind ih fun _ => .ok _

theorem loadFiles_le {env : BuildEnv} {inc inc' : Str → Str → Bld Node} (h : ∀ e c, Le (inc e c) (inc' e c)) (fs : List (Str × Str)) :
    Le (loadFiles env false inc fs) (loadFiles env false inc' fs) := by
  induction fs with
  | nil => rw [loadFiles, loadFiles]; exact .refl _
  | cons f fs ih => rw [loadFiles_false, loadFiles_false]; exact Le.bind (loadOne_le h f) fun _ => Le.bind ih fun _ => .refl _

theorem getNodeTree_pure (env : BuildEnv) (F : Nat) : ∀ e cur, Pure (getNodeTree env false F e cur) := by
  induction F with
  | zero => intro e cur; rw [getNodeTree]; exact .loops
  | succ F ih =>
    intro e cur
    rw [getNodeTree]
    split
    · exact .exc _
    · exact Pure.bind (loadFiles_pure ih _) fun ns => by split <;> intro c <;> rfl

theorem getNodeTree_le (env : BuildEnv) (F k : Nat) : ∀ e cur, Le (getNodeTree env false F e cur) (getNodeTree env false (F + k) e cur) := by
  induction F with
  | zero => intro e cur c; left; rw [getNodeTree]
  | succ F ih =>
    intro e cur
    rw [show F + 1 + k = (F + k) + 1 by omega, getNodeTree, getNodeTree]
    split
    · exact .refl _
    · exact Le.bind (loadFiles_le ih _) fun ns => .refl _

theorem getNodeTree_le' (env : BuildEnv) {F G : Nat} (h : F ≤ G) (e cur : Str) :
    Le (getNodeTree env false F e cur) (getNodeTree env false G e cur) := by
  obtain ⟨k, rfl⟩ := Nat.exists_eq_add_of_le h
  exact getNodeTree_le env F k e cur

/-- Files are opened with one of two protocols, both of four letters: src/common/utilities/files.cpp, OpenFile. -/
def BuildEnv.Protocols (env : BuildEnv) : Prop :=
  ∀ expr cur fs, env.open_ expr cur = some fs → ∀ f ∈ fs, f.1 = "file".toList ∨ f.1 = "http".toList

/-- Every entry of the cache is what building the file gives. -/
def Coherent (env : BuildEnv) (c : NodeCache) : Prop :=
  ∀ proto path n, proto.length = 4 → c.lookup (proto ++ path) = some n →
    ∃ x G, env.file proto path = some x ∧ buildFile env (getNodeTree env false G) path x [] = .ok n []

theorem Coherent.nil (env : BuildEnv) : Coherent env [] := by intro _ _ _ _ h; cases h

theorem Coherent.add {env : BuildEnv} {c : NodeCache} (h : Coherent env c) {proto path : Str} {x : Xml} {n : Node} {G : Nat}
    (hp : proto.length = 4) (hf : env.file proto path = some x) (hb : buildFile env (getNodeTree env false G) path x [] = .ok n []) :
    Coherent env (c ++ [(proto ++ path, n)]) := by
  intro proto' path' n' hl hk
  rw [List.lookup_append] at hk
  cases hc : c.lookup (proto' ++ path') with
  | some m =>
    rw [hc] at hk
    simp only [Option.some_or, Option.some.injEq] at hk
    subst hk
    exact h proto' path' m hl hc
  | none =>
    rw [hc] at hk
    simp only [Option.none_or, List.lookup_cons, List.lookup_nil] at hk
    split at hk
    · rename_i he
      simp only [Option.some.injEq] at hk
      subst hk
      have he' : proto' ++ path' = proto ++ path := by simpa using he
      obtain ⟨h1, h2⟩ := List.append_inj he' (by omega)
      subst h1 h2
      exact ⟨x, G, hf, hb⟩
    · cases hk

/-- With a coherent cache `x` gives what `Y G` gives without cache for large `G`. -/
def Agree (env : BuildEnv) {α : Type} (x : Bld α) (Y : Nat → Bld α) : Prop :=
  ∀ c, Coherent env c →
    (∀ a c', x c = .ok a c' → Coherent env c' ∧ ∃ G, Y G [] = .ok a []) ∧
    (∀ e c', x c = .exc e c' → Coherent env c' ∧ ∃ G, Y G [] = .exc e [])

/-- The uncached side: monotonic in the number, and pure. -/
def Fam {α : Type} (Y : Nat → Bld α) : Prop := (∀ G G', G ≤ G' → Le (Y G) (Y G')) ∧ ∀ G, Pure (Y G)

theorem Fam.up {α : Type} {Y : Nat → Bld α} (h : Fam Y) {G G' : Nat} (hg : G ≤ G') {o : BOut α} (ho : Y G [] = o) (hn : o ≠ .loops) :
    Y G' [] = o := by
  rcases h.1 G G' hg [] with h' | h'
  · exact absurd (ho.symm.trans h') hn
  · rw [h', ho]

theorem Agree.bind {env : BuildEnv} {α β : Type} {x : Bld α} {Y : Nat → Bld α} {f : α → Bld β} {g : Nat → α → Bld β}
    (hx : Agree env x Y) (hY : Fam Y) (hf : ∀ a, Agree env (f a) (fun G => g G a)) (hg : ∀ a, Fam (fun G => g G a)) :
    Agree env (Bld.bind x f) (fun G => Bld.bind (Y G) (g G)) := by
  intro c hc
  obtain ⟨h1, h2⟩ := hx c hc
  unfold Bld.bind
  cases hxc : x c with
  | loops => simp
  | exc e c' =>
    obtain ⟨a, G, b⟩ := h2 e c' hxc
    refine ⟨by simp, ?_⟩
    intro e' c'' he
    simp only [BOut.exc.injEq] at he
    obtain ⟨rfl, rfl⟩ := he
    exact ⟨a, G, by simp only; rw [b]⟩
  | ok a c' =>
    obtain ⟨hc', G, hG⟩ := h1 a c' hxc
    obtain ⟨f1, f2⟩ := hf a c' hc'
    refine ⟨?_, ?_⟩
    · intro b c'' hb
      obtain ⟨hc'', G2, hG2⟩ := f1 b c'' hb
      refine ⟨hc'', max G G2, ?_⟩
      simp only
      rw [hY.up (Nat.le_max_left G G2) hG (by simp)]
      exact (hg a).up (Nat.le_max_right G G2) hG2 (by simp)
    · intro b c'' hb
      obtain ⟨hc'', G2, hG2⟩ := f2 b c'' hb
      refine ⟨hc'', max G G2, ?_⟩
      simp only
      rw [hY.up (Nat.le_max_left G G2) hG (by simp)]
      exact (hg a).up (Nat.le_max_right G G2) hG2 (by simp)

/-- Computations that do not use the cache. -/
theorem Agree.same {env : BuildEnv} {α : Type} {x : Bld α} (h : Pure x) : Agree env x (fun _ => x) := by
  intro c hc
  have h0 := h []
  rw [h c]
  cases hx : x [] with
  | ok a c' =>
    rw [hx] at h0
    simp only [BOut.withCache, BOut.ok.injEq, true_and] at h0
    subst h0
    simp only [BOut.withCache, BOut.ok.injEq, reduceCtorEq, false_implies, implies_true, and_true]
    rintro a' c' ⟨rfl, rfl⟩
    exact ⟨hc, 0, hx⟩
  | exc e c' =>
    rw [hx] at h0
    simp only [BOut.withCache, BOut.exc.injEq, true_and] at h0
    subst h0
    simp only [BOut.withCache, BOut.exc.injEq, reduceCtorEq, false_implies, implies_true, true_and]
    rintro a' c' ⟨rfl, rfl⟩
    exact ⟨hc, 0, hx⟩
  | loops => simp [BOut.withCache]

theorem Fam.same {α : Type} {x : Bld α} (h : Pure x) : Fam (fun _ => x) := ⟨fun _ _ _ => .refl _, fun _ => h⟩

theorem Fam.bind {α β : Type} {Y : Nat → Bld α} {g : Nat → α → Bld β} (hY : Fam Y) (hg : ∀ a, Fam (fun G => g G a)) :
    Fam (fun G => Bld.bind (Y G) (g G)) :=
  ⟨fun G G' h => Le.bind (hY.1 G G' h) fun a => (hg a).1 G G' h, fun G => Pure.bind (hY.2 G) fun a => (hg a).2 G⟩

mutual
theorem create_agree {env : BuildEnv} {inc : Str → Str → Bld Node} {Inc : Nat → Str → Str → Bld Node}
    (h : ∀ e c, Agree env (inc e c) (fun G => Inc G e c)) (hI : ∀ e c, Fam (fun G => Inc G e c)) (top : Bool) (cur : Str) :
    ∀ x : Xml, Agree env (x.create env inc top cur) (fun G => x.create env (Inc G) top cur)
  | .el attrs kids => by
    have hle : ∀ G G', G ≤ G' → ∀ e c, Le (Inc G e c) (Inc G' e c) := fun G G' hg e c => (hI e c).1 G G' hg
    have hpu : ∀ G e c, Pure (Inc G e c) := fun G e c => (hI e c).2 G
    simp only [Xml.create]
    split
    · refine Agree.bind (.same (.lift _)) (.same (.lift _)) (fun d => ?_) (fun d => ?_)
      · split
        · refine .same ?_
          split <;> intro c <;> rfl
        · refine Agree.bind (createKids_agree h hI cur kids) ?_ (fun _ => .same (.ok _)) (fun _ => .same (.ok _))
          exact ⟨fun G G' hg => createKids_le (hle G G' hg) cur kids, fun G => createKids_pure (hpu G) cur kids⟩
      · split
        · refine .same ?_
          split <;> intro c <;> rfl
        · refine Fam.bind ?_ (fun _ => .same (.ok _))
          exact ⟨fun G G' hg => createKids_le (hle G G' hg) cur kids, fun G => createKids_pure (hpu G) cur kids⟩
    · refine .same ?_
      split
      · exact Pure.bind (.lift _) fun d => .ok _
      · exact .exc _
    · exact Agree.bind (h _ _) (hI _ _) (fun n => .same (Pure.bind (.lift _) fun d => .ok _))
        (fun n => .same (Pure.bind (.lift _) fun d => .ok _))
    · exact .same (.exc _)
theorem createKids_agree {env : BuildEnv} {inc : Str → Str → Bld Node} {Inc : Nat → Str → Str → Bld Node}
    (h : ∀ e c, Agree env (inc e c) (fun G => Inc G e c)) (hI : ∀ e c, Fam (fun G => Inc G e c)) (cur : Str) :
    ∀ l : List Xml, Agree env (Xml.createKids env inc cur l) (fun G => Xml.createKids env (Inc G) cur l)
  | [] => by simp only [Xml.createKids]; exact .same (.ok _)
  | x :: xs => by
    have hle : ∀ G G', G ≤ G' → ∀ e c, Le (Inc G e c) (Inc G' e c) := fun G G' hg e c => (hI e c).1 G G' hg
    have hpu : ∀ G e c, Pure (Inc G e c) := fun G e c => (hI e c).2 G
    simp only [Xml.createKids]
    refine Agree.bind (create_agree h hI false cur x) ?_ (fun n => ?_) (fun n => ?_)
    · exact ⟨fun G G' hg => create_le (hle G G' hg) false cur x, fun G => create_pure (hpu G) false cur x⟩
    · refine Agree.bind (createKids_agree h hI cur xs) ?_ (fun ns => .same (.ok _)) (fun ns => .same (.ok _))
      exact ⟨fun G G' hg => createKids_le (hle G G' hg) cur xs, fun G => createKids_pure (hpu G) cur xs⟩
    · refine Fam.bind ?_ (fun ns => .same (.ok _))
      exact ⟨fun G G' hg => createKids_le (hle G G' hg) cur xs, fun G => createKids_pure (hpu G) cur xs⟩
end

theorem getNodeTree_fam (env : BuildEnv) (e cur : Str) : Fam (fun G => getNodeTree env false G e cur) :=
  ⟨fun _ _ h => getNodeTree_le' env h e cur, fun G => getNodeTree_pure env G e cur⟩

theorem buildFile_fam (env : BuildEnv) (path : Str) (x : Xml) : Fam (fun G => buildFile env (getNodeTree env false G) path x) :=
  ⟨fun _ _ h => buildFile_le (getNodeTree_le' env h) path x, fun G => buildFile_pure (getNodeTree_pure env G) path x⟩

theorem loadOne_fam (env : BuildEnv) (f : Str × Str) : Fam (fun G => loadOne env (getNodeTree env false G) f) :=
  ⟨fun _ _ h => loadOne_le (getNodeTree_le' env h) f, fun G => loadOne_pure (getNodeTree_pure env G) f⟩

theorem loadFiles_fam (env : BuildEnv) (fs : List (Str × Str)) : Fam (fun G => loadFiles env false (getNodeTree env false G) fs) :=
  ⟨fun _ _ h => loadFiles_le (getNodeTree_le' env h) fs, fun G => loadFiles_pure (getNodeTree_pure env G) fs⟩

/-- One file, with the cache. -/
def loadOneC (env : BuildEnv) (inc : Str → Str → Bld Node) (f : Str × Str) : Bld (List Node) := fun c =>
  match c.lookup (f.1 ++ f.2) with
  | some n => .ok [n] c
  | none =>
    match env.file f.1 f.2 with
    | none => .ok [] c
    | some x =>
      match buildFile env inc f.2 x c with
      | .ok n c' => .ok [n] (c' ++ [(f.1 ++ f.2, n)])
      | .exc e c' => .exc e c'
      | .loops => .loops

theorem loadFiles_true (env : BuildEnv) (inc : Str → Str → Bld Node) (f : Str × Str) (fs : List (Str × Str)) :
    loadFiles env true inc (f :: fs) =
      Bld.bind (loadOneC env inc f) fun ns => Bld.bind (loadFiles env true inc fs) fun ms => fun c => .ok (ns ++ ms) c := by
  obtain ⟨proto, path⟩ := f
  rw [loadFiles]
  rfl

theorem loadOne_agree {env : BuildEnv} {inc : Str → Str → Bld Node} (h : ∀ e c, Agree env (inc e c) (fun G => getNodeTree env false G e c))
    {f : Str × Str} (hf : f.1.length = 4) : Agree env (loadOneC env inc f) (fun G => loadOne env (getNodeTree env false G) f) := by
  intro c hc
  unfold loadOneC
  cases hl : c.lookup (f.1 ++ f.2) with
  | some n =>
    obtain ⟨x, G, hx, hb⟩ := hc f.1 f.2 n hf hl
    simp only [BOut.ok.injEq, reduceCtorEq, false_implies, implies_true, and_true]
    rintro a c' ⟨rfl, rfl⟩
    refine ⟨hc, G, ?_⟩
    simp only [loadOne, hx, Bld.bind, hb]
  | none =>
    simp only
    cases hx : env.file f.1 f.2 with
    | none =>
      simp only [BOut.ok.injEq, reduceCtorEq, false_implies, implies_true, and_true]
      rintro a c' ⟨rfl, rfl⟩
      exact ⟨hc, 0, by simp only [loadOne, hx]⟩
    | some x =>
      simp only
      have hag : Agree env (buildFile env inc f.2 x) (fun G => buildFile env (getNodeTree env false G) f.2 x) := by
        unfold buildFile
        refine Agree.bind (create_agree h (getNodeTree_fam env) true f.2 x) ?_ (fun n => .same (.lift _)) (fun n => .same (.lift _))
        exact ⟨fun _ _ h => create_le (getNodeTree_le' env h) _ _ x, fun G => create_pure (getNodeTree_pure env G) _ _ x⟩
      obtain ⟨h1, h2⟩ := hag c hc
      cases hb : buildFile env inc f.2 x c with
      | loops => simp
      | exc e c' =>
        obtain ⟨a, G, b⟩ := h2 e c' hb
        simp only [BOut.exc.injEq, reduceCtorEq, false_implies, implies_true, true_and]
        rintro e' c'' ⟨rfl, rfl⟩
        exact ⟨a, G, by simp only [loadOne, hx, Bld.bind, b]⟩
      | ok n c' =>
        obtain ⟨a, G, b⟩ := h1 n c' hb
        simp only [BOut.ok.injEq, reduceCtorEq, false_implies, implies_true, and_true]
        rintro e' c'' ⟨rfl, rfl⟩
        exact ⟨a.add hf hx b, G, by simp only [loadOne, hx, Bld.bind, b]⟩

theorem loadFiles_agree {env : BuildEnv} {inc : Str → Str → Bld Node} (h : ∀ e c, Agree env (inc e c) (fun G => getNodeTree env false G e c))
    (fs : List (Str × Str)) (hf : ∀ f ∈ fs, f.1.length = 4) :
    Agree env (loadFiles env true inc fs) (fun G => loadFiles env false (getNodeTree env false G) fs) := by
  induction fs with
  | nil => simp only [loadFiles]; exact .same (.ok _)
  | cons f fs ih =>
    simp only [loadFiles_true, loadFiles_false]
    have ih' := ih (fun x hx => hf x (by simp [hx]))
    exact Agree.bind (loadOne_agree h (hf f (by simp))) (loadOne_fam env f)
      (fun ns => Agree.bind ih' (loadFiles_fam env fs) (fun ms => .same (.ok _)) (fun ms => .same (.ok _)))
      (fun ns => Fam.bind (loadFiles_fam env fs) (fun ms => .same (.ok _)))

/-- With the cache a tree or an exception is what comes out without it. -/
theorem getNodeTree_agree {env : BuildEnv} (hp : env.Protocols) (F : Nat) :
    ∀ e cur, Agree env (getNodeTree env true F e cur) (fun G => getNodeTree env false G e cur) := by
  induction F with
  | zero => intro e cur c hc; rw [getNodeTree]; simp
  | succ F ih =>
    intro e cur c hc
    rw [getNodeTree]
    have key : Agree env
        (match env.open_ e cur with
        | none => fun c => .exc .fileCount c
        | some fs =>
          Bld.bind (loadFiles env true (getNodeTree env true F) fs) fun ns =>
            match ns with
            | [n] => fun c => .ok n.clone c
            | _ => fun c => .exc .fileCount c)
        (fun G => match env.open_ e cur with
        | none => fun c => .exc .fileCount c
        | some fs =>
          Bld.bind (loadFiles env false (getNodeTree env false G) fs) fun ns =>
            match ns with
            | [n] => fun c => .ok n.clone c
            | _ => fun c => .exc .fileCount c) := by
      cases ho : env.open_ e cur with
      | none => exact .same (.exc _)
      | some fs =>
        have hl : ∀ f ∈ fs, f.1.length = 4 := by
          intro f hf
          rcases hp e cur fs ho f hf with h | h <;> rw [h] <;> rfl
        have hpu : ∀ ns : List Node, Pure (match ns with
            | [n] => fun c => BOut.ok n.clone c
            | _ => fun c => .exc .fileCount c) := by
          intro ns; split <;> intro c <;> rfl
        exact Agree.bind (loadFiles_agree ih fs hl) (loadFiles_fam env fs) (fun ns => .same (hpu ns)) (fun ns => .same (hpu ns))
    obtain ⟨h1, h2⟩ := key c hc
    refine ⟨?_, ?_⟩
    · intro a c' h
      obtain ⟨x, G, y⟩ := h1 a c' h
      exact ⟨x, G + 1, y⟩
    · intro a c' h
      obtain ⟨x, G, y⟩ := h2 a c' h
      exact ⟨x, G + 1, y⟩

/-! ## The cache makes no more endless than without -/

/-- If `y` comes to an end without cache, so does `x` with a coherent one. -/
def Ends (env : BuildEnv) {α : Type} (x y : Bld α) : Prop :=
  ∀ c, Coherent env c → y [] ≠ .loops → x c ≠ .loops

theorem Ends.same {env : BuildEnv} {α : Type} {x : Bld α} (h : Pure x) : Ends env x x := by
  intro c _ hy
  rw [h c]
  cases hx : x [] with
  | loops => exact absurd hx hy
  | ok a c' => simp [BOut.withCache]
  | exc e c' => simp [BOut.withCache]

/-- If moreover the outcomes agree, the rest can follow. -/
theorem Ends.bind {env : BuildEnv} {α β : Type} {x : Bld α} {Y : Nat → Bld α} {F : Nat} {f g : α → Bld β}
    (hx : Ends env x (Y F)) (ha : Agree env x Y) (hY : Fam Y) (hf : ∀ a, Ends env (f a) (g a)) :
    Ends env (Bld.bind x f) (Bld.bind (Y F) g) := by
  intro c hc hy
  unfold Bld.bind at hy ⊢
  have hYF : Y F [] ≠ .loops := by intro h; rw [h] at hy; exact hy rfl
  have hxc := hx c hc hYF
  cases hxe : x c with
  | loops => exact absurd hxe hxc
  | exc e c' => simp
  | ok a c' =>
    obtain ⟨hc', G, hG⟩ := (ha c hc).1 a c' hxe
    have h1 : Y F [] = .ok a [] := by
      rcases Nat.le_total F G with h | h
      · rcases hY.1 F G h [] with h' | h'
        · exact absurd h' hYF
        · rw [← h', hG]
      · exact hY.up h hG (by simp)
    rw [h1] at hy
    exact hf a c' hc' hy

mutual
theorem create_ends {env : BuildEnv} {inc : Str → Str → Bld Node} {Inc : Nat → Str → Str → Bld Node} {F : Nat}
    (he : ∀ e c, Ends env (inc e c) (Inc F e c))
    (h : ∀ e c, Agree env (inc e c) (fun G => Inc G e c)) (hI : ∀ e c, Fam (fun G => Inc G e c)) (top : Bool) (cur : Str) :
    ∀ x : Xml, Ends env (x.create env inc top cur) (x.create env (Inc F) top cur)
  | .el attrs kids => by
    have hle : ∀ G G', G ≤ G' → ∀ e c, Le (Inc G e c) (Inc G' e c) := fun G G' hg e c => (hI e c).1 G G' hg
    have hpu : ∀ G e c, Pure (Inc G e c) := fun G e c => (hI e c).2 G
    simp only [Xml.create]
    split
    · refine Ends.bind (Y := fun _ => Bld.lift (plainData (!top) attrs cur)) (F := F) (.same (.lift _)) (.same (.lift _))
        (.same (.lift _)) (fun d => ?_)
      split
      · refine .same ?_
        split <;> intro c <;> rfl
      · exact Ends.bind (Y := fun G => Xml.createKids env (Inc G) cur kids) (createKids_ends he h hI cur kids)
          (createKids_agree h hI cur kids)
          ⟨fun G G' hg => createKids_le (hle G G' hg) cur kids, fun G => createKids_pure (hpu G) cur kids⟩ (fun _ => .same (.ok _))
    · refine .same ?_
      split
      · exact Pure.bind (.lift _) fun d => .ok _
      · exact .exc _
    · exact Ends.bind (Y := fun G => Inc G ((attr? attrs .module_).getD []) cur) (he _ _) (h _ _) (hI _ _)
        (fun n => .same (Pure.bind (.lift _) fun d => .ok _))
    · exact .same (.exc _)
theorem createKids_ends {env : BuildEnv} {inc : Str → Str → Bld Node} {Inc : Nat → Str → Str → Bld Node} {F : Nat}
    (he : ∀ e c, Ends env (inc e c) (Inc F e c))
    (h : ∀ e c, Agree env (inc e c) (fun G => Inc G e c)) (hI : ∀ e c, Fam (fun G => Inc G e c)) (cur : Str) :
    ∀ l : List Xml, Ends env (Xml.createKids env inc cur l) (Xml.createKids env (Inc F) cur l)
  | [] => by simp only [Xml.createKids]; exact .same (.ok _)
  | x :: xs => by
    have hle : ∀ G G', G ≤ G' → ∀ e c, Le (Inc G e c) (Inc G' e c) := fun G G' hg e c => (hI e c).1 G G' hg
    have hpu : ∀ G e c, Pure (Inc G e c) := fun G e c => (hI e c).2 G
    simp only [Xml.createKids]
    refine Ends.bind (Y := fun G => x.create env (Inc G) false cur) (create_ends he h hI false cur x) (create_agree h hI false cur x)
      ⟨fun G G' hg => create_le (hle G G' hg) false cur x, fun G => create_pure (hpu G) false cur x⟩ (fun n => ?_)
    exact Ends.bind (Y := fun G => Xml.createKids env (Inc G) cur xs) (createKids_ends he h hI cur xs) (createKids_agree h hI cur xs)
      ⟨fun G G' hg => createKids_le (hle G G' hg) cur xs, fun G => createKids_pure (hpu G) cur xs⟩ (fun ns => .same (.ok _))
end

theorem loadFiles_ends {env : BuildEnv} {inc : Str → Str → Bld Node} {F : Nat}
    (he : ∀ e c, Ends env (inc e c) (getNodeTree env false F e c))
    (h : ∀ e c, Agree env (inc e c) (fun G => getNodeTree env false G e c))
    (fs : List (Str × Str)) (hf : ∀ f ∈ fs, f.1.length = 4) :
    Ends env (loadFiles env true inc fs) (loadFiles env false (getNodeTree env false F) fs) := by
  induction fs with
  | nil => simp only [loadFiles]; exact .same (.ok _)
  | cons f fs ih =>
    rw [loadFiles_true, loadFiles_false]
    have hf' : ∀ f ∈ fs, f.1.length = 4 := fun x hx => hf x (by simp [hx])
    refine Ends.bind (Y := fun G => loadOne env (getNodeTree env false G) f) ?_ (loadOne_agree h (hf f (by simp))) (loadOne_fam env f)
      (fun ns => Ends.bind (Y := fun G => loadFiles env false (getNodeTree env false G) fs) (ih hf') (loadFiles_agree h fs hf')
        (loadFiles_fam env fs) (fun ms => .same (.ok _)))
    intro c hc hy
    unfold loadOneC
    cases c.lookup (f.1 ++ f.2) with
    | some n => simp
    | none =>
      simp only
      cases hx : env.file f.1 f.2 with
      | none => simp
      | some x =>
        simp only [loadOne, hx] at hy ⊢
        have hb : buildFile env (getNodeTree env false F) f.2 x [] ≠ .loops := by
          intro hh; unfold Bld.bind at hy; rw [hh] at hy; exact hy rfl
        have : Ends env (buildFile env inc f.2 x) (buildFile env (getNodeTree env false F) f.2 x) := by
          unfold buildFile
          exact Ends.bind (Y := fun G => x.create env (getNodeTree env false G) true f.2)
            (create_ends (Inc := fun G => getNodeTree env false G) he h (getNodeTree_fam env) true f.2 x)
            (create_agree h (getNodeTree_fam env) true f.2 x)
            ⟨fun _ _ h => create_le (getNodeTree_le' env h) _ _ x, fun G => create_pure (getNodeTree_pure env G) _ _ x⟩
            (fun n => .same (.lift _))
        have h3 := this c hc hb
        cases hbb : buildFile env inc f.2 x c with
        | loops => exact absurd hbb h3
        | ok n c' => simp
        | exc e c' => simp

theorem getNodeTree_ends {env : BuildEnv} (hp : env.Protocols) (F : Nat) :
    ∀ e cur, Ends env (getNodeTree env true F e cur) (getNodeTree env false F e cur) := by
  induction F with
  | zero => intro e cur c hc h; rw [getNodeTree] at h; exact absurd rfl h
  | succ F ih =>
    intro e cur
    rw [getNodeTree, getNodeTree]
    cases ho : env.open_ e cur with
    | none => exact .same (.exc _)
    | some fs =>
      have hl : ∀ f ∈ fs, f.1.length = 4 := by
        intro f hf
        rcases hp e cur fs ho f hf with h | h <;> rw [h] <;> rfl
      refine Ends.bind (Y := fun G => loadFiles env false (getNodeTree env false G) fs) (loadFiles_ends ih (getNodeTree_agree hp F) fs hl)
        (loadFiles_agree (getNodeTree_agree hp F) fs hl) (loadFiles_fam env fs) (fun ns => .same ?_)
      split <;> intro c <;> rfl

end Verif
