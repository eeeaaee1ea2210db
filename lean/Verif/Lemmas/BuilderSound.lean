import Verif.Lemmas.BuilderTree
import Verif.Lemmas.BuilderCache
/-!
# The builder (without cache) and what address files declare
-/

set_option autoImplicit false
set_option linter.unusedSimpArgs false

namespace Verif
open Spec

theorem Bld.bind_ok {α β : Type} {x : Bld α} {f : α → Bld β} {c c'' : NodeCache} {b : β} (h : Bld.bind x f c = .ok b c'') :
    ∃ a c', x c = .ok a c' ∧ f a c' = .ok b c'' := by
  unfold Bld.bind at h
  cases hx : x c with
  | ok a c' => rw [hx] at h; exact ⟨a, c', rfl, h⟩
  | exc e c' => rw [hx] at h; cases h
  | loops => rw [hx] at h; cases h

theorem Bld.bind_of {α β : Type} {x : Bld α} {f : α → Bld β} {c c' c'' : NodeCache} {a : α} {b : β} (h : x c = .ok a c')
    (h' : f a c' = .ok b c'') : Bld.bind x f c = .ok b c'' := by
  unfold Bld.bind; rw [h]; exact h'

theorem Bld.lift_ok {α : Type} {x : Except BuildExc α} {c c' : NodeCache} {a : α} (h : Bld.lift x c = .ok a c') : x = .ok a ∧ c' = c := by
  unfold Bld.lift at h
  cases x with
  | ok b => simp only [BOut.ok.injEq] at h; exact ⟨by rw [h.1], h.2.symm⟩
  | error e => cases h

theorem decl_of_core {d : NodeData} {u : Str} {p m z : W} {pe : Permission} {mo : Mode} (h : d.core = (u, p, m, pe, mo, z)) (ks : List Node) :
    (Node.mk d ks).decl = .mk u p m pe mo z d.info (ks.map Node.decl) := by
  simp only [NodeData.core, Prod.mk.injEq] at h
  obtain ⟨h1, h2, h3, h4, h5, h6⟩ := h
  rw [Node.decl_mk, h1, h2, h3, h4, h5, h6]

theorem core_decl (d : NodeData) : d.core = (d.uid, d.part, d.mask, d.perm, d.mode, d.size) := rfl

theorem Decl.eta (t : Decl) : Decl.mk t.uid t.part t.mask t.perm t.mode t.size t.info t.kids = t := by cases t; rfl

theorem decl_mode (n : Node) : n.decl.mode = n.d.mode := by rw [Node.decl_eq]; rfl

theorem kids_isEmpty_pos {l : List Xml} (h : l.isEmpty = true) : l = [] := by simpa using h

mutual
theorem create_sound {env : BuildEnv} {inc : Str → Str → Bld Node} {Inc : Str → Str → Decl → Prop}
    (hi : ∀ e cur n c c', inc e cur c = .ok n c' → ∃ t, Inc e cur t ∧ LikeD n.decl t) (top : Bool) (cur : Str) :
    ∀ (x : Xml) (c c' : NodeCache) (n : Node), x.create env inc top cur c = .ok n c' →
      ∃ t, Declares orJ Inc top cur x t ∧ LikeD n.decl t
  | .el attrs kids => by
    intro c c' n h
    generalize hf : Xml.create env inc top cur (.el attrs kids) = f at h
    rw [Xml.create] at hf
    split at hf <;> subst hf
    · rename_i hk
      obtain ⟨hka, hid, hm, hmo⟩ := (kindOf_plain top attrs).1 hk
      obtain ⟨d, c1, h1, h2⟩ := Bld.bind_ok h
      obtain ⟨hd1, rfl⟩ := Bld.lift_ok h1
      obtain ⟨p1, p2, p3, p4, p5, p6, p7⟩ := plainData_ok hd1
      split at h2
      · split at h2
        · rename_i hmode hemp
          cases h2
          have hemp := kids_isEmpty_pos hemp
          subst hemp
          refine ⟨.mk d.uid d.part d.mask d.perm d.mode d.size d.info [], ?_, ?_⟩
          · rw [Declares]
            exact ⟨hka, .inl ⟨hm, hmo, p1, p2, p3, p4, p5, p6, p7, fun _ => rfl, by rw [DeclaresL]; trivial⟩⟩
          · rw [withClass_decl, Node.decl_mk]; exact .refl _
        · cases h2
      · rename_i hmode
        obtain ⟨ks, c2, h3, h4⟩ := Bld.bind_ok h2
        cases h4
        obtain ⟨ts, ht, hs⟩ := createKids_sound hi cur kids _ _ _ h3
        refine ⟨.mk d.uid d.part d.mask d.perm d.mode d.size d.info ts, ?_, ?_⟩
        · rw [Declares]
          exact ⟨hka, .inl ⟨hm, hmo, p1, p2, p3, p4, p5, p6, p7, fun hh => absurd hh hmode, ht⟩⟩
        · rw [withClass_decl, Node.decl_mk, ranked_decl]
          exact .of_kids hs
    · rename_i hk
      obtain ⟨hka, hid, h1, h2, h3, h4, h5⟩ := (kindOf_mask top attrs).1 hk
      split at h
      · rename_i hemp
        have hemp := kids_isEmpty_pos hemp
        subst hemp
        obtain ⟨d, c1, hd, h6⟩ := Bld.bind_ok h
        obtain ⟨hd1, rfl⟩ := Bld.lift_ok hd
        cases h6
        obtain ⟨p1, p2, p3, p4, p5, p6, p7⟩ := maskData_ok hd1
        refine ⟨.mk d.uid d.part d.mask d.perm d.mode d.size d.info [], ?_, ?_⟩
        · rw [Declares]
          exact ⟨hka, .inr (.inl ⟨h1, h2, h3, h4, h5, p1, p2, p3, p4, p5, p6, p7, rfl, rfl⟩)⟩
        · rw [Node.decl_mk]; exact .refl _
      · cases h
    · rename_i hk
      obtain ⟨hka, hid, h1, h2, h3, h4, h5⟩ := (kindOf_module top attrs).1 hk
      obtain ⟨r, c1, hr, h6⟩ := Bld.bind_ok h
      obtain ⟨d, c2, hd, h7⟩ := Bld.bind_ok h6
      obtain ⟨hd1, rfl⟩ := Bld.lift_ok hd
      cases h7
      obtain ⟨t, ht, hl⟩ := hi _ _ _ _ _ hr
      obtain ⟨u, a, hc, hu, ha, hinf⟩ := moduleData_ok hd1
      obtain ⟨m, hm⟩ := (has_iff attrs .module_).1 h1
      rw [hm, Option.getD_some] at ht
      have e1 : r.d.uid = t.uid := by rw [← hl.uid, Node.decl_eq]; rfl
      have e2 : r.d.part = t.part := by rw [← hl.part, Node.decl_eq]; rfl
      have e3 : r.d.info = t.info := by rw [← hl.info, Node.decl_eq]; rfl
      refine ⟨.mk u (t.part ||| a) t.mask t.perm t.mode t.size d.info t.kids, ?_, ?_⟩
      · rw [Declares]
        refine ⟨hka, .inr (.inr ⟨h1, h2, h3, h4, h5, m, t.uid, t.part, a, t.info, hm, ?_, by rw [← e1]; exact hu, ha, rfl,
          by rw [← e3]; exact hinf⟩)⟩
        rw [Decl.eta]; exact ht
      · rw [withClass_decl, decl_of_core hc, e2]
        have := hl.head u (t.part ||| a) d.info
        rw [Node.decl_eq] at this
        exact this
    · cases h
theorem createKids_sound {env : BuildEnv} {inc : Str → Str → Bld Node} {Inc : Str → Str → Decl → Prop}
    (hi : ∀ e cur n c c', inc e cur c = .ok n c' → ∃ t, Inc e cur t ∧ LikeD n.decl t) (cur : Str) :
    ∀ (l : List Xml) (c c' : NodeCache) (ns : List Node), Xml.createKids env inc cur l c = .ok ns c' →
      ∃ ts, DeclaresL orJ Inc cur l ts ∧ SameKids (ns.map Node.decl) ts
  | [] => by
    intro c c' ns h
    rw [Xml.createKids] at h
    cases h
    exact ⟨[], by rw [DeclaresL]; trivial, .refl _⟩
  | x :: xs => by
    intro c c' ns h
    rw [Xml.createKids] at h
    obtain ⟨n, c1, h1, h2⟩ := Bld.bind_ok h
    obtain ⟨ms, c2, h3, h4⟩ := Bld.bind_ok h2
    cases h4
    obtain ⟨t, ht, hl⟩ := create_sound hi false cur x _ _ _ h1
    obtain ⟨ts, hts, hs⟩ := createKids_sound hi cur xs _ _ _ h3
    exact ⟨t :: ts, by rw [DeclaresL]; exact ⟨ht, hts⟩, .cons hl hs⟩
end

mutual
theorem create_complete {env : BuildEnv} {inc : Str → Str → Bld Node} {Inc : Str → Str → Decl → Prop}
    (hi : ∀ e cur t c, Inc e cur t → ∃ n, inc e cur c = .ok n c ∧ LikeD n.decl t) (top : Bool) (cur : Str) :
    ∀ (x : Xml) (c : NodeCache) (t : Decl), Declares orJ Inc top cur x t → ∃ n, x.create env inc top cur c = .ok n c ∧ LikeD n.decl t
  | .el attrs kids => by
    intro c t h
    obtain ⟨uid, part, mask, perm, mode, size, info, ks⟩ := t
    rw [Declares] at h
    obtain ⟨hka, h | h | h⟩ := h
    · obtain ⟨h1, h2, p1, p2, p3, p4, p5, p6, p7, h3, h4⟩ := h
      have hk := (kindOf_plain top attrs).2 ⟨hka, needsId_of p1, h1, h2⟩
      obtain ⟨d, hd, hc, rfl⟩ := plainData_of cur p1 p2 p4 p5 p6 p7
      have hm : d.mode = mode := by simp only [NodeData.core, Prod.mk.injEq] at hc; exact hc.2.2.2.2.1
      rw [Xml.create, hk]
      subst p3
      by_cases hmode : mode = .nonIncremental
      · have hkids := h3 hmode
        subst hkids
        have : ks = [] := by cases ks with | nil => rfl | cons a l => rw [DeclaresL] at h4; exact h4.elim; all_goals simp
        subst this
        refine ⟨withClass env (.mk d []), ?_, ?_⟩
        · refine Bld.bind_of (a := d) (c' := c) (by unfold Bld.lift; rw [hd]) ?_
          rw [if_pos (hm.trans hmode)]; rfl
        · rw [withClass_decl, decl_of_core hc]; exact .refl _
      · obtain ⟨ns, hn, hs⟩ := createKids_complete hi cur kids c ks h4
        refine ⟨withClass env (.mk d (ranked ns 0)), ?_, ?_⟩
        · refine Bld.bind_of (a := d) (c' := c) (by unfold Bld.lift; rw [hd]) ?_
          rw [if_neg (by rw [hm]; exact hmode)]
          exact Bld.bind_of hn rfl
        · rw [withClass_decl, decl_of_core hc, ranked_decl]; exact .of_kids hs
    · obtain ⟨h1, h2, h3, h4, h5, p1, p2, p3, p4, p5, p6, p7, rfl, rfl⟩ := h
      have hk := (kindOf_mask top attrs).2 ⟨hka, needsId_of p1, h1, h2, h3, h4, h5⟩
      obtain ⟨d, hd, hc, rfl⟩ := maskData_of cur p1 p2 p3 p4 p7
      rw [Xml.create, hk]
      refine ⟨.mk d [], ?_, ?_⟩
      · simp only [List.isEmpty_nil, if_true]
        exact Bld.bind_of (a := d) (c' := c) (by unfold Bld.lift; rw [hd]) rfl
      · rw [decl_of_core hc, p5, p6]; exact .refl _
    · obtain ⟨h1, h2, h3, h4, h5, m, ruid, rpart, off, rinfo, hm, hr, p1, p2, hj, hinf⟩ := h
      have hk := (kindOf_module top attrs).2 ⟨hka, needsId_of p1, h1, h2, h3, h4, h5⟩
      obtain ⟨r, hr', hl⟩ := hi m cur _ c hr
      have e1 : r.d.uid = ruid := by have := hl.uid; rw [Node.decl_eq] at this; exact this
      have e3 : r.d.info = rinfo := by have := hl.info; rw [Node.decl_eq] at this; exact this
      have e2 : r.d.part = rpart := by have := hl.part; rw [Node.decl_eq] at this; exact this
      obtain ⟨d, hd, hc, rfl⟩ := moduleData_of (attrs := attrs) cur r.d (by rw [e1]; exact p1) p2 (by rw [e3]; exact hinf)
      rw [Xml.create, hk]
      refine ⟨withClass env (.mk d r.kids), ?_, ?_⟩
      · refine Bld.bind_of (by rw [hm, Option.getD_some]; exact hr') ?_
        exact Bld.bind_of (a := d) (c' := c) (by unfold Bld.lift; rw [hd]) rfl
      · rw [withClass_decl, decl_of_core hc, e2]
        have := hl.head uid (rpart ||| off) d.info
        rw [Node.decl_eq] at this
        unfold orJ at hj
        subst hj
        exact this
theorem createKids_complete {env : BuildEnv} {inc : Str → Str → Bld Node} {Inc : Str → Str → Decl → Prop}
    (hi : ∀ e cur t c, Inc e cur t → ∃ n, inc e cur c = .ok n c ∧ LikeD n.decl t) (cur : Str) :
    ∀ (l : List Xml) (c : NodeCache) (ts : List Decl), DeclaresL orJ Inc cur l ts →
      ∃ ns, Xml.createKids env inc cur l c = .ok ns c ∧ SameKids (ns.map Node.decl) ts
  | [] => by
    intro c ts h
    cases ts with
    | nil => exact ⟨[], by rw [Xml.createKids], .refl _⟩
    | cons t ts => simp [DeclaresL] at h
  | x :: xs => by
    intro c ts h
    cases ts with
    | nil => simp [DeclaresL] at h
    | cons t ts =>
      rw [DeclaresL] at h
      obtain ⟨n, hn, hl⟩ := create_complete hi false cur x c t h.1
      obtain ⟨ns, hns, hs⟩ := createKids_complete hi cur xs c ts h.2
      refine ⟨n :: ns, ?_, .cons hl hs⟩
      rw [Xml.createKids]
      exact Bld.bind_of hn (Bld.bind_of hns rfl)
end

/-! ## Files -/

/-- Which files of an expression are usable. -/
def BuildEnv.usable (env : BuildEnv) (fs : List (Str × Str)) : List (Str × Str) := fs.filter (fun f => (env.file f.1 f.2).isSome)

/-- Two lists correspond. -/
inductive Two {α β : Type} (R : α → β → Prop) : List α → List β → Prop
  | nil : Two R [] []
  | cons {a : α} {b : β} {l : List α} {k : List β} : R a b → Two R l k → Two R (a :: l) (b :: k)

/-- The outcomes of loading: one tree for every usable file. -/
theorem loadFiles_ok {env : BuildEnv} {inc : Str → Str → Bld Node} (hp : ∀ e c, Bld.Pure (inc e c)) (fs : List (Str × Str)) (ns : List Node) :
    loadFiles env false inc fs [] = .ok ns [] ↔
      Two (fun f n => ∃ x, env.file f.1 f.2 = some x ∧ buildFile env inc f.2 x [] = .ok n []) (env.usable fs) ns := by
  induction fs generalizing ns with
  | nil =>
    rw [loadFiles]
    simp only [BOut.ok.injEq, and_true, BuildEnv.usable, List.filter_nil]
    constructor
    · rintro rfl; exact .nil
    · intro h; cases h; rfl
  | cons f fs ih =>
    rw [loadFiles_false]
    have hemp : ∀ {α : Type} {x : Bld α} {a : α} {c : NodeCache}, Bld.Pure x → x [] = .ok a c → c = [] := by
      intro α x a c hx h
      have := hx []
      rw [h] at this
      simp only [BOut.withCache, BOut.ok.injEq, true_and] at this
      exact this
    cases hf : env.file f.1 f.2 with
    | none =>
      have e1 : env.usable (f :: fs) = env.usable fs := by simp [BuildEnv.usable, hf]
      rw [e1, ← ih]
      have e2 : loadOne env inc f = fun c => .ok [] c := by simp only [loadOne, hf]
      rw [e2]
      simp only [Bld.bind, List.nil_append]
      cases h : loadFiles env false inc fs [] with
      | ok ms c => simp
      | exc e c => simp
      | loops => simp
    | some x =>
      have e1 : env.usable (f :: fs) = f :: env.usable fs := by simp [BuildEnv.usable, hf]
      rw [e1]
      have e2 : loadOne env inc f = Bld.bind (buildFile env inc f.2 x) fun n => fun c => .ok [n] c := by simp only [loadOne, hf]
      rw [e2]
      constructor
      · intro h
        obtain ⟨a, c1, h1, h2⟩ := Bld.bind_ok h
        obtain ⟨n, c2, h3, h4⟩ := Bld.bind_ok h1
        cases h4
        have := hemp (buildFile_pure hp f.2 x) h3
        subst this
        obtain ⟨ms, c3, h5, h6⟩ := Bld.bind_ok h2
        simp only [BOut.ok.injEq] at h6
        obtain ⟨rfl, rfl⟩ := h6
        exact .cons ⟨x, hf, h3⟩ ((ih ms).1 h5)
      · intro h
        cases h with
        | @cons _ n _ ms h1 h2 =>
          obtain ⟨x', hx', hb⟩ := h1
          rw [hf] at hx'
          cases hx'
          exact Bld.bind_of (a := [n]) (c' := []) (Bld.bind_of hb rfl) (Bld.bind_of ((ih ms).2 h2) rfl)

theorem pure_nil {α : Type} {x : Bld α} {a : α} {c c' : NodeCache} (hx : Bld.Pure x) (h : x c = .ok a c') : c' = c ∧ x [] = .ok a [] := by
  have h0 := hx []
  rw [hx c] at h
  cases hh : x [] with
  | ok b d =>
    rw [hh] at h h0
    simp only [BOut.withCache, BOut.ok.injEq, true_and] at h h0
    subst h0
    exact ⟨h.2.symm, by rw [h.1]⟩
  | exc e d => rw [hh] at h; cases h
  | loops => rw [hh] at h; cases h

/-- What comes out without the cache is what the files declare. -/
theorem getNodeTree_sound {env : BuildEnv} (hs : env.Sorts) (F : Nat) : ∀ e cur n c c', getNodeTree env false F e cur c = .ok n c' →
    ∃ t, FileDeclares env orJ F e cur t ∧ LikeD n.decl t ∧ n.table.Perm (t.rows 0#32) := by
  induction F with
  | zero => intro e cur n c c' h; rw [getNodeTree] at h; cases h
  | succ F ih =>
    intro e cur n c c' h
    obtain ⟨_, h⟩ := pure_nil (getNodeTree_pure env (F + 1) e cur) h
    rw [getNodeTree] at h
    cases ho : env.open_ e cur with
    | none => rw [ho] at h; cases h
    | some fs =>
      rw [ho] at h
      obtain ⟨ns, c1, h1, h2⟩ := Bld.bind_ok h
      obtain ⟨rfl, h1⟩ := pure_nil (loadFiles_pure (getNodeTree_pure env F) fs) h1
      rw [loadFiles_ok (getNodeTree_pure env F)] at h1
      split at h2
      · rename_i m hns
        cases h2
        cases hu : env.usable fs with
        | nil => rw [hu] at h1; cases h1
        | cons f fs' =>
          rw [hu] at h1
          cases h1 with
          | cons h3 h4 =>
            cases h4
            obtain ⟨x, hx, hb⟩ := h3
            obtain ⟨m0, c2, h5, h6⟩ := Bld.bind_ok hb
            obtain ⟨hd6, rfl⟩ := Bld.lift_ok h6
            obtain ⟨t, ht, hl⟩ := create_sound (Inc := FileDeclares env orJ F)
              (fun e cur n c c' h => by obtain ⟨t, a, b, _⟩ := ih e cur n c c' h; exact ⟨t, a, b⟩) true f.2 x _ _ _ h5
            obtain ⟨g1, g2, g3⟩ := (calc_spec hs m0 0#32).1 m hd6
            refine ⟨t, ?_, ?_, ?_⟩
            · rw [FileDeclares]
              exact ⟨fs, f.1, f.2, x, ho, hu, hx, ht, hl.blocks.1 g1⟩
            · rw [Node.decl_clone]; exact g2.trans hl
            · rw [Node.table_clone]; exact g3.trans (hl.rows 0#32)
      · cases h2

/-- What files declare comes out, without the cache. -/
theorem getNodeTree_complete {env : BuildEnv} (hs : env.Sorts) (F : Nat) : ∀ e cur t c, FileDeclares env orJ F e cur t →
    ∃ n, getNodeTree env false F e cur c = .ok n c ∧ LikeD n.decl t := by
  induction F with
  | zero => intro e cur t c h; rw [FileDeclares] at h; exact h.elim
  | succ F ih =>
    intro e cur t c h
    rw [FileDeclares] at h
    obtain ⟨fs, proto, path, x, ho, hu, hx, ht, hb⟩ := h
    obtain ⟨m0, h5, hl⟩ := create_complete (env := env) (inc := getNodeTree env false F) ih true path x [] t ht
    obtain ⟨m, hm⟩ := (calc_spec hs m0 0#32).2 (hl.blocks.2 hb)
    obtain ⟨g1, g2, g3⟩ := (calc_spec hs m0 0#32).1 m hm
    refine ⟨m.clone, ?_, by rw [Node.decl_clone]; exact g2.trans hl⟩
    rw [getNodeTree_pure env (F + 1) e cur c]
    have : getNodeTree env false (F + 1) e cur [] = .ok m.clone [] := by
      rw [getNodeTree, ho]
      refine Bld.bind_of (a := [m]) (c' := []) ?_ rfl
      rw [loadFiles_ok (getNodeTree_pure env F)]
      have hu' : env.usable fs = [(proto, path)] := hu
      rw [hu']
      refine .cons ⟨x, hx, ?_⟩ .nil
      exact Bld.bind_of h5 (by unfold Bld.lift; rw [hm])
    rw [this]; rfl

end Verif
