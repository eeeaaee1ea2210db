import Verif.Model.Derived
import Verif.Props.C32
import Verif.Props.C33
import Verif.Props.C60
/-!
# C84: nodes are of the classes that the address table names

See `/verif/properties.jsonl` and `DESIGN.md`.
-/

set_option autoImplicit false
set_option linter.unusedSimpArgs false

namespace Verif
open Node

namespace Spec

/-- The class of a node: the one its element names, if it is known; otherwise `dflt`. -/
def ownClass (known : Str → Bool) (attrs : List (Str × Str)) (dflt : Str) : Str :=
  match attr? attrs .class_ with
  | none => dflt
  | some c => if c ≠ [] ∧ known c = true then c else dflt

mutual
/-- The class of an element and those of all elements below, with the ids on the way. An element without class that includes a file has the class of the file's outermost element.
`inc`: the same for files. `[]` stands for a plain node. -/
def Kinds (known : Str → Bool) (inc : Str → Str → Str → List (List Str × Str) → Prop) (cur : Str) : Xml → Str → List (List Str × Str) → Prop
  | .el attrs kids, t, l =>
    (attr? attrs .module_ = none ∧ t = ownClass known attrs [] ∧ KindsL known inc cur kids l) ∨
    ∃ m t', attr? attrs .module_ = some m ∧ inc m cur t' l ∧ t = ownClass known attrs t'
def KindsL (known : Str → Bool) (inc : Str → Str → Str → List (List Str × Str) → Prop) (cur : Str) : List Xml → List (List Str × Str) → Prop
  | [], l => l = []
  | .el attrs kids :: xs, l => ∃ t a b, Kinds known inc cur (.el attrs kids) t a ∧ KindsL known inc cur xs b ∧
      l = (([], t) :: a).map (fun x => ((attr? attrs .id).getD [] :: x.1, x.2)) ++ b
end

/-- The same for files, with at most `depth` nested. -/
def FileKinds (env : BuildEnv) : Nat → Str → Str → Str → List (List Str × Str) → Prop
  | 0, _, _, _, _ => False
  | depth + 1, expr, cur, t, l => ∃ fs proto path x, env.open_ expr cur = some fs ∧
      fs.filter (fun f => (env.file f.1 f.2).isSome) = [(proto, path)] ∧ env.file proto path = some x ∧
      ∃ l', Kinds env.known (fun e c t l => ∃ l', FileKinds env depth e c t l' ∧ l.Perm l') path x t l' ∧ l.Perm l'

end Spec
open Spec

/-! ### Classes of a tree -/

mutual
/-- The classes of all nodes below a node. -/
def Node.kinds : Node → List (List Str × Str)
  | .mk _ kids => Node.kindsL kids
def Node.kindsL : List Node → List (List Str × Str)
  | [] => []
  | k :: ks => (([], k.d.ty) :: k.kinds).map (fun x => (k.d.uid :: x.1, x.2)) ++ Node.kindsL ks
end

/-- The part for one child. -/
def Node.asKid (k : Node) : List (List Str × Str) := (([], k.d.ty) :: k.kinds).map fun x => (k.d.uid :: x.1, x.2)

theorem belowL_eq (l : List Node) : Node.kindsL l = l.flatMap Node.asKid := by
  induction l with
  | nil => rfl
  | cons k ks ih => rw [Node.kindsL, ih]; rfl

theorem below_eq (n : Node) : n.kinds = n.kids.flatMap Node.asKid := by
  cases n; rw [Node.kinds, belowL_eq]; rfl

theorem asKid_congr {k k' : Node} (h1 : k.d.uid = k'.d.uid) (h2 : k.d.ty = k'.d.ty) (h3 : k.kinds.Perm k'.kinds) : k.asKid.Perm k'.asKid := by
  unfold Node.asKid
  rw [h1, h2]
  exact (List.Perm.cons _ h3).map _

theorem asKid_rank (d : NodeData) (r : Nat) (k : List Node) : (Node.mk { d with rank := r } k).asKid = (Node.mk d k).asKid := by
  simp only [Node.asKid, d_mk, below_eq, kids_mk]

theorem below_clone (n : Node) : n.clone.kinds = n.kinds := by
  induction n using Node.ind with
  | h d kids ih =>
    rw [below_eq, below_eq, clone_kids, List.flatMap_def, List.flatMap_def, cloneKids_map Node.asKid (fun d r k => asKid_rank d r k), List.map_map]
    congr 1
    refine List.map_congr_left ?_
    intro k hk
    simp only [Function.comp, Node.asKid, Node.clone_d, ih k hk]

theorem below_ranked (l : List Node) (i : Nat) : (ranked l i).flatMap Node.asKid = l.flatMap Node.asKid := by
  induction l generalizing i with
  | nil => rfl
  | cons k ks ih =>
    rw [ranked, List.flatMap_cons, List.flatMap_cons, ih, asKid_rank, Node.eta]

/-- `calculateHierarchicalAddresses` changes the order of the nodes only. -/
theorem calc_below {env : BuildEnv} (hs : env.Sorts) (n : Node) : ∀ base n', n.calc env base = .ok n' → n'.d.uid = n.d.uid ∧ n'.d.ty = n.d.ty ∧ n'.kinds.Perm n.kinds := by
  induction n using Node.ind with
  | h d kids ih =>
    intro base n' h
    have hkids : ∀ (l : List Node), (∀ k ∈ l, k ∈ kids) → ∀ base ks, Node.calcKids env l base = .ok ks → (ks.flatMap Node.asKid).Perm (l.flatMap Node.asKid) := by
      intro l
      induction l with
      | nil => intro _ base ks h; rw [Node.calcKids] at h; cases h; exact .refl _
      | cons k l ihl =>
        intro hl base ks h
        rw [Node.calcKids] at h
        cases hc : k.calc env base with
        | error e => rw [hc] at h; cases h
        | ok n' =>
          rw [hc] at h
          simp only at h
          cases hcs : Node.calcKids env l base with
          | error e => rw [hcs] at h; cases h
          | ok ns =>
            rw [hcs] at h
            cases h
            obtain ⟨a1, a2, a3⟩ := ih k (hl k (by simp)) base n' hc
            rw [List.flatMap_cons, List.flatMap_cons]
            exact (asKid_congr a1 a2 a3).append (ihl (fun x hx => hl x (by simp [hx])) base ns hcs)
    rw [Node.calc] at h
    split at h
    · cases h
    cases hc : Node.calcKids env kids (d.part + base) with
    | error e => rw [hc] at h; cases h
    | ok ks =>
      rw [hc] at h
      cases h
      refine ⟨rfl, rfl, ?_⟩
      rw [below_eq, below_eq]
      exact ((hs ks).1.flatMap_right _).trans (hkids kids (fun _ h => h) _ _ hc)

/-! ### The class of the data of an element -/

theorem setUid_ty {r : Bool} {attrs : List (Str × Str)} {d d' : NodeData} (h : setUid r attrs d = .ok d') : d'.ty = d.ty := by
  unfold setUid at h
  repeat' split at h
  all_goals first | (cases h; rfl) | cases h

theorem setPars_ty (attrs : List (Str × Str)) (d : NodeData) : (setPars attrs d).ty = d.ty := by
  simp only [setPars]; split <;> rfl

theorem setFw_ty {attrs : List (Str × Str)} {d d' : NodeData} (h : setFirmwareInfo attrs d = .ok d') : d'.ty = d.ty := by
  obtain ⟨f, rfl, _⟩ := setFirmwareInfo_ok h; rfl

theorem setAddr_ty {attrs : List (Str × Str)} {d d' : NodeData} (h : setAddr attrs d = .ok d') : d'.ty = d.ty := by
  obtain ⟨f, rfl, _⟩ := setAddr_ok h; rfl

theorem setMask_ty {attrs : List (Str × Str)} {d d' : NodeData} (h : setMask attrs d = .ok d') : d'.ty = d.ty := by
  obtain ⟨f, rfl, _⟩ := setMask_ok h; rfl

theorem setPerm_ty {attrs : List (Str × Str)} {d d' : NodeData} (h : setPermissions attrs d = .ok d') : d'.ty = d.ty := by
  unfold setPermissions at h
  repeat' split at h
  all_goals first | (cases h; rfl) | cases h

theorem setMode_ty {attrs : List (Str × Str)} {d d' : NodeData} (h : setModeAndSize attrs d = .ok d') : d'.ty = d.ty := by
  unfold setModeAndSize at h
  cases hg : getU32 attrs .size with
  | error e =>
    simp only [hg, bind, Except.bind] at h
    repeat' split at h
    all_goals first | (cases h; rfl) | cases h
  | ok o =>
    simp only [hg, bind, Except.bind, pure, Except.pure] at h
    repeat' split at h
    all_goals first | (cases h; rfl) | cases h

theorem bind_ok' {ε α β : Type} {x : Except ε α} {f : α → Except ε β} {b : β} (h : (x >>= f) = .ok b) : ∃ a, x = .ok a ∧ f a = .ok b := by
  cases x with
  | error e => cases h
  | ok a => exact ⟨a, rfl, h⟩

theorem plainData_ty {r : Bool} {attrs : List (Str × Str)} {cur : Str} {d : NodeData} (h : plainData r attrs cur = .ok d) : d.ty = [] := by
  unfold plainData at h
  obtain ⟨d1, h1, h⟩ := bind_ok' h
  obtain ⟨d2, h2, h⟩ := bind_ok' h
  obtain ⟨d3, h3, h⟩ := bind_ok' h
  obtain ⟨d4, h4, h⟩ := bind_ok' h
  rw [setMode_ty h, setPerm_ty h4]
  show d3.ty = []
  rw [setFw_ty h3, setPars_ty, setAddr_ty h2, setUid_ty h1]

theorem maskData_ty {r : Bool} {attrs : List (Str × Str)} {cur : Str} {d : NodeData} (h : maskData r attrs cur = .ok d) : d.ty = [] := by
  unfold maskData at h
  obtain ⟨d1, h1, h⟩ := bind_ok' h
  obtain ⟨d2, h2, h⟩ := bind_ok' h
  obtain ⟨d3, h3, h⟩ := bind_ok' h
  obtain ⟨d4, h4, h⟩ := bind_ok' h
  rw [setMask_ty h, setPerm_ty h4]
  show d3.ty = []
  rw [setFw_ty h3, setPars_ty]
  show d2.ty = []
  rw [setAddr_ty h2, setUid_ty h1]

theorem moduleData_ty {r : Bool} {attrs : List (Str × Str)} {cur : Str} {d d' : NodeData} (h : moduleData r attrs cur d = .ok d') : d'.ty = d.ty := by
  unfold moduleData at h
  obtain ⟨d1, h1, h⟩ := bind_ok' h
  obtain ⟨d2, h2, h⟩ := bind_ok' h
  obtain ⟨d3, h3, h⟩ := bind_ok' h
  cases h
  show d3.ty = _
  rw [setFw_ty h3, setPars_ty]
  show d2.ty = _
  rw [setAddr_ty h2, setUid_ty h1]

theorem withClass_kinds (env : BuildEnv) (d : NodeData) (ks : List Node) {attrs : List (Str × Str)} (hc : d.cls = (attr? attrs .class_).getD []) :
    (withClass env (.mk d ks)).d.uid = d.uid ∧ (withClass env (.mk d ks)).d.ty = ownClass env.known attrs d.ty ∧
    (withClass env (.mk d ks)).kinds = (Node.mk d ks).kinds := by
  unfold withClass ownClass
  simp only [d_mk, hc]
  cases attr? attrs .class_ with
  | none => simp
  | some c =>
    simp only [Option.getD_some]
    split
    · rename_i h
      refine ⟨by rw [d_mk, clone_d]; rfl, rfl, ?_⟩
      rw [below_eq, kids_mk, ← below_eq, below_clone]
    · exact ⟨rfl, rfl, rfl⟩

theorem uid_child {o : Option Str} {dflt uid : Str} (h : IdIs false o dflt uid) : uid = o.getD [] := by
  unfold IdIs at h
  cases o with
  | none => simp at h
  | some s => exact h.1

/-! ### The builder -/

theorem not_has {attrs : List (Str × Str)} {a : Attr} (h : ¬ Has attrs a) : attr? attrs a = none := by
  cases e : attr? attrs a with
  | none => rfl
  | some v => exact absurd ((has_iff attrs a).2 ⟨v, e⟩) h

/-- The attributes of an element. -/
def Xml.attrs : Xml → List (Str × Str)
  | .el a _ => a

section
variable {env : BuildEnv} {inc : Str → Str → Bld Node} {Inc : Str → Str → Str → List (List Str × Str) → Prop}

mutual
theorem create_kinds (hi : ∀ e cur n c c', inc e cur c = .ok n c' → Inc e cur n.d.ty n.kinds) (top : Bool) (cur : Str) :
    ∀ (x : Xml) (c c' : NodeCache) (n : Node), x.create env inc top cur c = .ok n c' →
      (∃ dflt, IdIs top (attr? x.attrs .id) dflt n.d.uid) ∧ ∃ l, Kinds env.known Inc cur x n.d.ty l ∧ n.kinds.Perm l
  | .el attrs kids => by
    intro c c' n h
    generalize hf : Xml.create env inc top cur (.el attrs kids) = f at h
    rw [Xml.create] at hf
    split at hf <;> subst hf
    · rename_i hk
      obtain ⟨hka, hid, hm, hmo⟩ := (kindOf_plain top attrs).1 hk
      obtain ⟨d, c1, h1, h2⟩ := Bld.bind_ok h
      obtain ⟨hd1, rfl⟩ := Bld.lift_ok h1
      obtain ⟨p1, p2, p3, p4, p5, p6, p7⟩ := plainData_ok hd1
      have hty := plainData_ty hd1
      split at h2
      · split at h2
        · rename_i hmode hemp
          cases h2
          have hemp := kids_isEmpty_pos hemp
          subst hemp
          obtain ⟨w1, w2, w3⟩ := withClass_kinds env d [] p7.cls
          refine ⟨⟨[], by rw [w1]; exact p1⟩, [], ?_, by rw [w3]; exact .refl _⟩
          rw [Kinds, w2, hty]
          exact .inl ⟨not_has hmo, rfl, by rw [KindsL]⟩
        · cases h2
      · rename_i hmode
        obtain ⟨ks, c2, h3, h4⟩ := Bld.bind_ok h2
        cases h4
        obtain ⟨l, ht, hs⟩ := createKids_kinds hi cur kids _ _ _ h3
        obtain ⟨w1, w2, w3⟩ := withClass_kinds env d (ranked ks 0) p7.cls
        refine ⟨⟨[], by rw [w1]; exact p1⟩, l, ?_, ?_⟩
        · rw [Kinds, w2, hty]
          exact .inl ⟨not_has hmo, rfl, ht⟩
        · rw [w3, below_eq, kids_mk, below_ranked]; exact hs
    · rename_i hk
      obtain ⟨hka, hid, h1, h2, h3, h4, h5⟩ := (kindOf_mask top attrs).1 hk
      split at h
      · rename_i hemp
        have hemp := kids_isEmpty_pos hemp
        subst hemp
        obtain ⟨d, c1, hd, h6⟩ := Bld.bind_ok h
        obtain ⟨hd1, rfl⟩ := Bld.lift_ok hd
        cases h6
        obtain ⟨p1, p2, p3, p4, p5, p6, p7⟩ := maskData_ok hd1
        have hty := maskData_ty hd1
        refine ⟨⟨[], p1⟩, [], ?_, .refl _⟩
        rw [Kinds, d_mk, hty]
        have e : attr? attrs .class_ = none := not_has h3
        exact .inl ⟨not_has h2, by simp [ownClass, e], by rw [KindsL]⟩
      · cases h
    · rename_i hk
      obtain ⟨hka, hid, h1, h2, h3, h4, h5⟩ := (kindOf_module top attrs).1 hk
      obtain ⟨r, c1, hr, h6⟩ := Bld.bind_ok h
      obtain ⟨d, c2, hd, h7⟩ := Bld.bind_ok h6
      obtain ⟨hd1, rfl⟩ := Bld.lift_ok hd
      cases h7
      obtain ⟨u, a, hc, hu, ha, hinf⟩ := moduleData_ok hd1
      have hty := moduleData_ty hd1
      obtain ⟨m, hm⟩ := (has_iff attrs .module_).1 h1
      have ht := hi _ _ _ _ _ hr
      rw [hm, Option.getD_some] at ht
      obtain ⟨w1, w2, w3⟩ := withClass_kinds env d r.kids hinf.cls
      have hue : d.uid = u := by simp only [NodeData.core, Prod.mk.injEq] at hc; exact hc.1
      refine ⟨⟨r.d.uid, by rw [w1, hue]; exact hu⟩, r.kinds, ?_, ?_⟩
      · rw [Kinds, w2, hty]
        exact .inr ⟨m, r.d.ty, hm, ht, rfl⟩
      · rw [w3, below_eq, kids_mk, ← below_eq]
    · cases h
theorem createKids_kinds (hi : ∀ e cur n c c', inc e cur c = .ok n c' → Inc e cur n.d.ty n.kinds) (cur : Str) :
    ∀ (l : List Xml) (c c' : NodeCache) (ns : List Node), Xml.createKids env inc cur l c = .ok ns c' →
      ∃ r, KindsL env.known Inc cur l r ∧ (ns.flatMap Node.asKid).Perm r
  | [] => by
    intro c c' ns h
    rw [Xml.createKids] at h
    cases h
    exact ⟨[], by rw [KindsL], .refl _⟩
  | .el attrs kids :: xs => by
    intro c c' ns h
    rw [Xml.createKids] at h
    obtain ⟨n, c1, h1, h2⟩ := Bld.bind_ok h
    obtain ⟨ms, c2, h3, h4⟩ := Bld.bind_ok h2
    cases h4
    obtain ⟨⟨dflt, hu⟩, l, ht, hl⟩ := create_kinds hi false cur (.el attrs kids) _ _ _ h1
    obtain ⟨r, hts, hs⟩ := createKids_kinds hi cur xs _ _ _ h3
    have hu := uid_child hu
    refine ⟨(([], n.d.ty) :: l).map (fun x => ((attr? attrs .id).getD [] :: x.1, x.2)) ++ r, ?_, ?_⟩
    · rw [KindsL]; exact ⟨_, _, _, ht, hts, rfl⟩
    · rw [List.flatMap_cons]
      refine List.Perm.append ?_ hs
      unfold Node.asKid
      rw [hu]
      exact (List.Perm.cons _ hl).map _
end

end

/-- What comes out without the cache. -/
theorem getNodeTree_kinds {env : BuildEnv} (hs : env.Sorts) (F : Nat) : ∀ e cur n c c', getNodeTree env false F e cur c = .ok n c' →
    ∃ l, FileKinds env F e cur n.d.ty l ∧ n.kinds.Perm l := by
  induction F with
  | zero => intro e cur n c c' h; rw [getNodeTree] at h; cases h
  | succ F ih =>
    intro e cur n c c' h
    obtain ⟨_, h⟩ := pure_nil (getNodeTree_pure env (F + 1) e cur) h
    rw [getNodeTree] at h
    cases ho : env.open_ e cur with
    | none => rw [ho] at h; cases h
    | some fs =>
      rw [ho] at h
      obtain ⟨ns, c1, h1, h2⟩ := Bld.bind_ok h
      obtain ⟨rfl, h1⟩ := pure_nil (loadFiles_pure (getNodeTree_pure env F) fs) h1
      rw [loadFiles_ok (getNodeTree_pure env F)] at h1
      split at h2
      · rename_i m hns
        cases h2
        cases hu : env.usable fs with
        | nil => rw [hu] at h1; cases h1
        | cons f fs' =>
          rw [hu] at h1
          cases h1 with
          | cons h3 h4 =>
            cases h4
            obtain ⟨x, hx, hb⟩ := h3
            obtain ⟨m0, c2, h5, h6⟩ := Bld.bind_ok hb
            obtain ⟨hd6, rfl⟩ := Bld.lift_ok h6
            obtain ⟨_, l, hl, hp⟩ := create_kinds (Inc := fun e c t l => ∃ l', FileKinds env F e c t l' ∧ l.Perm l')
              (fun e cur n c c' h => ih e cur n c c' h) true f.2 x _ _ _ h5
            obtain ⟨g1, g2, g3⟩ := calc_below hs m0 0#32 m hd6
            refine ⟨l, ?_, ?_⟩
            · rw [FileKinds, clone_d]
              refine ⟨fs, f.1, f.2, x, ho, hu, hx, l, ?_, .refl _⟩
              rw [show ({ m.d with rank := 0 } : NodeData).ty = m.d.ty from rfl, g2]; exact hl
            · rw [below_clone]; exact g3.trans hp
      · cases h2

theorem mem_kinds (n : Node) (r : List Str × Str) : r ∈ ([], n.d.ty) :: n.kinds ↔ ∃ p v, n.sub? p = some v ∧ r = (n.ids p, v.d.ty) := by
  induction n using Node.ind generalizing r with
  | h d kids ih =>
    rw [below_eq, List.mem_cons, kids_mk, List.mem_flatMap]
    constructor
    · rintro (rfl | ⟨k, hk, hr⟩)
      · exact ⟨[], _, sub?_nil _, rfl⟩
      · obtain ⟨r', hr', rfl⟩ := List.mem_map.1 hr
        obtain ⟨i, hi⟩ := List.getElem?_of_mem hk
        obtain ⟨p, v, hv, rfl⟩ := (ih k hk r').1 hr'
        refine ⟨i :: p, v, by rw [sub?_cons]; simp only [kids_mk, hi]; exact hv, ?_⟩
        simp only [ids, lineage, kids_mk, hi, List.map_cons]
    · rintro ⟨p, v, hv, rfl⟩
      cases p with
      | nil => rw [sub?_nil] at hv; cases hv; exact .inl rfl
      | cons i p =>
        rw [sub?_cons] at hv
        simp only [kids_mk] at hv
        cases hk : kids[i]? with
        | none => rw [hk] at hv; simp at hv
        | some k =>
          rw [hk] at hv
          have hm := List.mem_of_getElem? hk
          refine .inr ⟨k, hm, List.mem_map.2 ⟨_, (ih k hm (k.ids p, v.d.ty)).2 ⟨p, v, hv, rfl⟩, ?_⟩⟩
          simp only [ids, lineage, kids_mk, hk, List.map_cons]

/-! ## C84 -/

/-- **C84**: the nodes of a tree that is built are of the classes that the files name, also if some of the files were read before.
Missing for C84: what becomes of an unknown class on an element that includes a file (`C84_violated_unknown`). -/
theorem C84_classes_partial {env : BuildEnv} (hs : env.Sorts) (hp : env.Protocols) {c c' : NodeCache} (hc : Coherent env c) {F : Nat}
    {e cur : Str} {n : Node} (h : getNodeTree env true F e cur c = .ok n c') :
    ∃ depth l, FileKinds env depth e cur n.d.ty l ∧ n.kinds.Perm l := by
  obtain ⟨_, G, hG⟩ := (C47_cache hp hc F e cur).1 n c' h
  obtain ⟨l, h1, h2⟩ := getNodeTree_kinds hs G e cur n [] [] hG
  exact ⟨G, l, h1, h2⟩

/-- **C84**: a copy has the classes of the original, and an assignment leaves the class of the node assigned to. -/
theorem C84_copy (n src : Node) : n.clone.d.ty = n.d.ty ∧ n.clone.kinds = n.kinds ∧ (Node.assign n src).d.ty = n.d.ty := by
  refine ⟨by rw [clone_d], below_clone n, ?_⟩
  cases n; cases src; rfl

namespace Derived

theorem lookup_append_none {f : Factory} {name : Str} {cls : Nat} (h : f.lookup name = none) (x : Str) :
    (f ++ [(name, cls)]).lookup x = (f.lookup x).or (if x = name then some cls else none) := by
  induction f with
  | nil =>
    simp only [List.nil_append, List.lookup_cons, List.lookup_nil, Option.none_or]
    by_cases e : x = name
    · simp [e]
    · have : (x == name) = false := by simpa using e
      simp [this, e]
  | cons y f ih =>
    obtain ⟨a, b⟩ := y
    rw [List.cons_append, List.lookup_cons, List.lookup_cons]
    rw [List.lookup_cons] at h
    cases hx : x == a with
    | true => simp
    | false =>
      simp only
      refine ih ?_
      cases hn : name == a with
      | true => rw [hn] at h; simp at h
      | false => rw [hn] at h; exact h

theorem add_lookup (f : Factory) (name : Str) (cls : Nat) (x : Str) :
    (add f name cls).lookup x = (f.lookup x).or (if x = name then some cls else none) := by
  unfold add
  split
  · rename_i h
    by_cases e : x = name
    · subst e
      cases hl : f.lookup x with
      | none => rw [hl] at h; simp at h
      | some v => rfl
    · simp [e]
  · rename_i h
    exact lookup_append_none (by cases hl : f.lookup name with | none => rfl | some v => rw [hl] at h; exact absurd rfl h) x

theorem foldl_lookup (rs : List (Str × Nat)) : ∀ (f : Factory) (x : Str),
    (rs.foldl (fun f r => add f r.1 r.2) f).lookup x = (f.lookup x).or (rs.lookup x) := by
  induction rs with
  | nil => intro f x; simp
  | cons r rs ih =>
    intro f x
    rw [List.foldl_cons, ih, add_lookup, List.lookup_cons]
    by_cases e : x = r.1
    · have : (x == r.1) = true := by simpa using e
      rw [if_pos e, this]
      cases f.lookup x <;> simp
    · have : (x == r.1) = false := by simpa using e
      rw [if_neg e, this]; simp

end Derived

/-- **C84**: the class that was registered first under a name is the one of that name; if no two have the same name, every class has its own. -/
theorem C84_factory (rs : List (Str × Nat)) :
    (∀ x c, (Derived.register rs).lookup x = some c ↔ ∃ a b, rs = a ++ (x, c) :: b ∧ ∀ r ∈ a, r.1 ≠ x) ∧
    ((rs.map (·.1)).Nodup → ∀ x c, (x, c) ∈ rs → (Derived.register rs).lookup x = some c) := by
  have hl : ∀ x, (Derived.register rs).lookup x = rs.lookup x := by
    intro x
    unfold Derived.register
    rw [Derived.foldl_lookup]; simp
  have key : ∀ x c, (Derived.register rs).lookup x = some c ↔ ∃ a b, rs = a ++ (x, c) :: b ∧ ∀ r ∈ a, r.1 ≠ x := by
    intro x c
    rw [hl]
    constructor
    · intro h
      clear hl
      induction rs with
      | nil => simp at h
      | cons r rs ih =>
        rw [List.lookup_cons] at h
        cases e : x == r.1 with
        | true =>
          rw [e] at h
          simp only [Option.some.injEq] at h
          have e : x = r.1 := by simpa using e
          exact ⟨[], rs, by rw [e, ← h]; rfl, by simp⟩
        | false =>
          rw [e] at h
          have e : ¬ x = r.1 := by simpa using e
          obtain ⟨a, b, rfl, h2⟩ := ih h
          refine ⟨r :: a, b, rfl, ?_⟩
          intro q hq
          rcases List.mem_cons.1 hq with rfl | hq
          · exact fun h => e h.symm
          · exact h2 q hq
    · rintro ⟨a, b, rfl, h⟩
      clear hl
      induction a with
      | nil => simp [List.lookup_cons]
      | cons r a ih =>
        rw [List.cons_append, List.lookup_cons]
        have : (x == r.1) = false := by simpa using fun e => h r (by simp) e.symm
        rw [this]
        exact ih (fun q hq => h q (by simp [hq]))
  refine ⟨key, ?_⟩
  intro hn x c hx
  obtain ⟨a, b, rfl⟩ := List.append_of_mem hx
  refine (key x c).2 ⟨a, b, rfl, ?_⟩
  intro r hr e
  rw [List.map_append, List.nodup_append] at hn
  exact hn.2.2 r.1 (List.mem_map_of_mem hr) x (by simp) e

/-- **C84**: `getNode<T>` gives the node with that path if it is of a class that is a `T`; it throws `BadNodeCast` if it is not, `NoBranchFoundWithGivenUID` if there is none.
`l`: paths and classes of all nodes. The class in the message: `C84_violated_message`. -/
theorem C84_cast {n : Node} (hg : GoodIds n) (hu : UniqueIds n) (f : Derived.Factory) (isA : Option Nat → Bool) (id : Str) {l : List (List Str × Str)}
    (hl : (([], n.d.ty) :: n.kinds).Perm l) :
    (∀ p, Derived.getNodeAs f isA n id = .node p ↔ (".".toList).intercalate (n.ids p) = id ∧ (∃ v, n.sub? p = some v) ∧
      ∃ t, (n.ids p, t) ∈ l ∧ isA (f.lookup t) = true) ∧
    (Derived.getNodeAs f isA n id = .noBranch ↔ ∀ r ∈ l, (".".toList).intercalate r.1 ≠ id) ∧
    ((∃ u c, Derived.getNodeAs f isA n id = .badCast u c) ↔ ∃ r ∈ l, (".".toList).intercalate r.1 = id ∧ isA (f.lookup r.2) = false) := by
  have mem : ∀ r, r ∈ l ↔ ∃ p v, n.sub? p = some v ∧ r = (n.ids p, v.d.ty) := fun r => by rw [← hl.mem_iff, mem_kinds]
  have rel : ∀ p, n.relPath p = (".".toList).intercalate (n.ids p) := fun p => by rw [relPath_eq hg, dots_eq]
  have look := fun p => C33_lookup hg hu id p
  -- entries with this path
  have ent : ∀ p v, n.getNode id = some p → n.sub? p = some v → ∀ r ∈ l, (".".toList).intercalate r.1 = id → r = (n.ids p, v.d.ty) := by
    intro p v hp hv r hr e
    obtain ⟨p', v', hv', rfl⟩ := (mem r).1 hr
    have := (look p').2 ⟨⟨v', hv'⟩, by rw [rel]; exact e⟩
    rw [hp] at this; cases this
    rw [hv] at hv'; cases hv'; rfl
  cases hgn : n.getNode id with
  | none =>
    have no : ∀ r ∈ l, (".".toList).intercalate r.1 ≠ id := by
      intro r hr e
      obtain ⟨p', v', hv', rfl⟩ := (mem r).1 hr
      have := (look p').2 ⟨⟨v', hv'⟩, by rw [rel]; exact e⟩
      rw [hgn] at this; cases this
    have e : Derived.getNodeAs f isA n id = .noBranch := by unfold Derived.getNodeAs; rw [hgn]
    rw [e]
    refine ⟨?_, ⟨fun _ => no, fun _ => rfl⟩, ?_⟩
    · intro p
      refine ⟨fun h => (by cases h), ?_⟩
      rintro ⟨h1, _, t, h2, _⟩
      exact absurd h1 (no _ h2)
    · refine ⟨?_, ?_⟩
      · rintro ⟨u, c, h⟩; cases h
      · rintro ⟨r, hr, h, _⟩; exact absurd h (no r hr)
  | some p =>
    obtain ⟨⟨v, hv⟩, hrel⟩ := (look p).1 hgn
    have hin : (n.ids p, v.d.ty) ∈ l := (mem _).2 ⟨p, v, hv, rfl⟩
    rw [rel] at hrel
    cases ha : isA (f.lookup v.d.ty) with
    | true =>
      have e : Derived.getNodeAs f isA n id = .node p := by
        unfold Derived.getNodeAs Derived.classOf; rw [hgn]; simp only [hv]; rw [if_pos ha]
      rw [e]
      refine ⟨?_, ⟨fun h => (by cases h), fun h => absurd hrel (h _ hin)⟩, ?_⟩
      · intro q
        constructor
        · intro h; cases h; exact ⟨hrel, ⟨v, hv⟩, _, hin, ha⟩
        · rintro ⟨h1, h2, _⟩
          have := (look q).2 ⟨h2, by rw [rel]; exact h1⟩
          rw [hgn] at this; cases this; rfl
      · refine ⟨?_, ?_⟩
        · rintro ⟨u, c, h⟩; cases h
        · rintro ⟨r, hr, h, h'⟩
          rw [ent p v hgn hv r hr h] at h'
          simp only at h'
          rw [ha] at h'; cases h'
    | false =>
      have e : Derived.getNodeAs f isA n id = .badCast v.d.uid (Derived.classOf f n) := by
        unfold Derived.getNodeAs
        rw [hgn]; simp only [hv]; rw [if_neg (by rw [Derived.classOf, ha]; simp)]
      rw [e]
      refine ⟨?_, ⟨fun h => (by cases h), fun h => absurd hrel (h _ hin)⟩, ?_⟩
      · intro q
        refine ⟨fun h => (by cases h), ?_⟩
        rintro ⟨h1, h2, t, h3, h4⟩
        have := congrArg Prod.snd (ent p v hgn hv _ h3 h1)
        simp only at this
        rw [this, ha] at h4; cases h4
      · exact ⟨fun _ => ⟨_, hin, hrel, ha⟩, fun _ => ⟨_, _, rfl⟩⟩

/-! ### What constructors see -/

theorem setAddr_addr {attrs : List (Str × Str)} {d d' : NodeData} (h : setAddr attrs d = .ok d') : d'.addr = d.addr := by
  obtain ⟨f, rfl, _⟩ := setAddr_ok h; rfl

theorem setUid_addr {r : Bool} {attrs : List (Str × Str)} {d d' : NodeData} (h : setUid r attrs d = .ok d') : d'.addr = d.addr := by
  unfold setUid at h
  repeat' split at h
  all_goals first | (cases h; rfl) | cases h

theorem setPerm_addr {attrs : List (Str × Str)} {d d' : NodeData} (h : setPermissions attrs d = .ok d') : d'.addr = d.addr := by
  unfold setPermissions at h
  repeat' split at h
  all_goals first | (cases h; rfl) | cases h

theorem setMode_addr {attrs : List (Str × Str)} {d d' : NodeData} (h : setModeAndSize attrs d = .ok d') : d'.addr = d.addr := by
  unfold setModeAndSize at h
  cases hg : getU32 attrs .size with
  | error e =>
    simp only [hg, bind, Except.bind] at h
    repeat' split at h
    all_goals first | (cases h; rfl) | cases h
  | ok o =>
    simp only [hg, bind, Except.bind, pure, Except.pure] at h
    repeat' split at h
    all_goals first | (cases h; rfl) | cases h

/-- The constructor of the class of an element that includes no file is given a node with address 0, whatever its address is to be: this is what `withClass` gets. -/
theorem C84_violated_ctor :
    (∀ r attrs cur d, plainData r attrs cur = .ok d → d.addr = 0#32) ∧
    (∃ attrs cur d n, plainData true attrs cur = .ok d ∧ attr? attrs .class_ = some "T".toList ∧
      (withClass { demoEnv "0" with known := fun _ => true } (.mk d [])).calc (demoEnv "0") 0#32 = .ok n ∧ n.d.addr = 4#32) := by
  constructor
  · intro r attrs cur d h
    unfold plainData at h
    obtain ⟨d1, h1, h⟩ := bind_ok' h
    obtain ⟨d2, h2, h⟩ := bind_ok' h
    obtain ⟨d3, h3, h⟩ := bind_ok' h
    obtain ⟨d4, h4, h⟩ := bind_ok' h
    rw [setMode_addr h, setPerm_addr h4]
    show d3.addr = _
    have : d3.addr = (setPars attrs d2).addr := by obtain ⟨f, rfl, _⟩ := setFirmwareInfo_ok h3; rfl
    rw [this]
    have : (setPars attrs d2).addr = d2.addr := by simp only [setPars]; split <;> rfl
    rw [this, setAddr_addr h2, setUid_addr h1]
  · refine ⟨[(Attr.id.name, "R".toList), (Attr.address.name, "0x4".toList), (Attr.class_.name, "T".toList)], [], ?_⟩
    exact ⟨_, _, rfl, rfl, rfl, rfl⟩

/-! ### A concrete table -/

/-- `a`: a node `TOP` of class `A` with a register `R` of the unknown class `U`, and `b` included twice, as `M` without a class and as `N` with the unknown class `U`.
The outermost element of `b` is of class `B`. -/
def classEnv : BuildEnv where
  open_ e _ := some [("file".toList, e)]
  file _ p :=
    if p = "a".toList then
      some (.el [(Attr.id.name, "TOP".toList), (Attr.class_.name, "A".toList)]
        [.el [(Attr.id.name, "R".toList), (Attr.address.name, "0x4".toList), (Attr.class_.name, "U".toList)] [],
         .el [(Attr.id.name, "M".toList), (Attr.address.name, "0x100".toList), (Attr.module_.name, "b".toList)] [],
         .el [(Attr.id.name, "N".toList), (Attr.address.name, "0x200".toList), (Attr.module_.name, "b".toList), (Attr.class_.name, "U".toList)] []])
    else if p = "b".toList then
      some (.el [(Attr.class_.name, "B".toList)] [.el [(Attr.id.name, "F".toList), (Attr.address.name, "0x2".toList), (Attr.class_.name, "A".toList)] []])
    else none
  known s := decide (s = "A".toList ∨ s = "B".toList)
  sort := stableSort (fun n => n.d.addr.toNat)

theorem classEnv_sorts : classEnv.Sorts := fun l => ⟨Node.stableSort_perm _ l, Node.stableSort_sorted _ l⟩

theorem classEnv_protocols : classEnv.Protocols := by
  intro e cur fs h f hf
  cases h
  simp only [List.mem_singleton] at hf
  subst hf
  exact .inl rfl

/-- The classes of the tree that an outcome has. -/
def outKinds : BOut Node → List (List Str × Str)
  | .ok n _ => ([], n.d.ty) :: n.kinds
  | _ => []

theorem classEnv_kinds : outKinds (getNodeTree classEnv true 3 "a".toList [] []) =
    [([], "A".toList), (["R".toList], []), (["M".toList], "B".toList), (["M".toList, "F".toList], "A".toList),
     (["N".toList], "B".toList), (["N".toList, "F".toList], "A".toList)] := by decide +kernel

/-- The outcome is a tree. -/
def BOut.isTree : BOut Node → Bool
  | .ok _ _ => true
  | _ => false

/-- A table is built, so the hypotheses of `C84_classes_partial` are met. -/
example : ∃ n c' depth l, getNodeTree classEnv true 3 "a".toList [] [] = .ok n c' ∧ FileKinds classEnv depth "a".toList [] n.d.ty l ∧ n.kinds.Perm l ∧
    (["M".toList, "F".toList], "A".toList) ∈ l := by
  have hk := classEnv_kinds
  cases h : getNodeTree classEnv true 3 "a".toList [] [] with
  | loops => rw [h] at hk; simp [outKinds] at hk
  | exc x c => rw [h] at hk; simp [outKinds] at hk
  | ok n c' =>
    obtain ⟨depth, l, h1, h2⟩ := C84_classes_partial classEnv_sorts classEnv_protocols (Coherent.nil _) h
    rw [h] at hk
    simp only [outKinds, List.cons.injEq] at hk
    refine ⟨n, c', depth, l, rfl, h1, h2, h2.mem_iff.1 ?_⟩
    rw [hk.2]; simp

/-- An unknown class on an element that includes a file: the warning says that a plain node comes out (src/common/DerivedNodeFactory.cpp:79), but it is of the class of the file's
outermost element. -/
theorem C84_violated_unknown : ∃ attrs kids x n c', classEnv.file "file".toList "a".toList = some x ∧ (∃ ta before after, x = .el ta (before ++ .el attrs kids :: after)) ∧
    attr? attrs .id = some "N".toList ∧ attr? attrs .class_ = some "U".toList ∧ classEnv.known "U".toList = false ∧
    getNodeTree classEnv true 3 "a".toList [] [] = .ok n c' ∧ (["N".toList], "B".toList) ∈ n.kinds := by
  have hk := classEnv_kinds
  cases h : getNodeTree classEnv true 3 "a".toList [] [] with
  | loops => rw [h] at hk; simp [outKinds] at hk
  | exc x c => rw [h] at hk; simp [outKinds] at hk
  | ok n c' =>
    rw [h] at hk
    simp only [outKinds, List.cons.injEq] at hk
    refine ⟨[(Attr.id.name, "N".toList), (Attr.address.name, "0x200".toList), (Attr.module_.name, "b".toList), (Attr.class_.name, "U".toList)], [], _, n, c', rfl,
      ⟨_, [_, _], [], rfl⟩, rfl, rfl, by decide, rfl, ?_⟩
    rw [hk.2]; simp

/-- Two classes of one name (the name has no namespace): a node that asks for it is of the one that was registered first; no node can be of the other. -/
theorem C84_violated_twice (name : Str) (c1 c2 : Nat) (hne : c1 ≠ c2) (rest : List (Str × Nat)) (hr : ∀ r ∈ rest, r.2 ≠ c2) (n : Node) :
    Derived.classOf (Derived.register ((name, c1) :: (name, c2) :: rest)) n ≠ some c2 := by
  intro h
  obtain ⟨a, b, e, h2⟩ := ((C84_factory _).1 _ _).1 h
  match a, e with
  | [], e => simp at e; exact hne e.1.2
  | [r], e =>
    simp only [List.cons_append, List.nil_append, List.cons.injEq, Prod.mk.injEq] at e
    exact h2 r (by simp) (by rw [← e.1]; exact e.2.1.1)
  | r :: q :: a, e =>
    simp only [List.cons_append, List.cons.injEq] at e
    exact hr (n.d.ty, c2) (by rw [e.2.2]; simp) rfl

/-- A node of class `A` with a node of class `B`. -/
def castTree : Node := .mk { uid := "TOP".toList, ty := "A".toList } [.mk { uid := "M".toList, ty := "B".toList } []]

theorem castTree_ok : GoodIds castTree ∧ UniqueIds castTree := by
  constructor
  · refine .mk ?_ ?_
    · simp only [List.mem_singleton, forall_eq, d_mk]; decide
    · simp only [List.mem_singleton, forall_eq]; exact .mk (by simp) (by simp)
  · refine .mk (by simp) ?_
    simp only [List.mem_singleton, forall_eq]; exact .mk (by simp) (by simp)

/-- The message of `BadNodeCast` has the class of the node at which the search started, for all trees; here it says that a node of class 2 is of class 1. -/
theorem C84_violated_message :
    (∀ f isA n id u c, Derived.getNodeAs f isA n id = .badCast u c → c = Derived.classOf f n) ∧
    (∃ f isA n v, GoodIds n ∧ UniqueIds n ∧ n.sub? [0] = some v ∧ Derived.classOf f v = some 2 ∧
      Derived.getNodeAs f isA n "M".toList = .badCast "M".toList (some 1)) := by
  constructor
  · intro f isA n id u c h
    unfold Derived.getNodeAs at h
    repeat' split at h
    all_goals first | (cases h; rfl) | cases h
  · exact ⟨[("A".toList, 1), ("B".toList, 2)], fun c => c = some 3, castTree, .mk { uid := "M".toList, ty := "B".toList } [], castTree_ok.1, castTree_ok.2, rfl, by decide,
      by decide +kernel⟩

/-- Casts at this tree: to its class, to another one, without a node; two names, one of them taken twice. -/
example : let f := Derived.register [("A".toList, 1), ("B".toList, 2), ("A".toList, 3)]
    Derived.getNodeAs f (· == some 2) castTree "M".toList = .node [0] ∧ Derived.getNodeAs f (· == some 1) castTree "M".toList = .badCast "M".toList (some 1) ∧
    Derived.getNodeAs f (· == some 1) castTree [] = .node [] ∧ Derived.getNodeAs f (fun _ => true) castTree "X".toList = .noBranch ∧
    f = [("A".toList, 1), ("B".toList, 2)] := by decide +kernel

end Verif
