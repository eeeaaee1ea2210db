import Verif.Lemmas.DecodeBits
import Verif.Props.C60
/-!
# The trees of the address decoder generator
-/

set_option autoImplicit false
set_option linter.unusedSimpArgs false

namespace Verif

theorem mapAll_some {α β : Type} {f : α → Option β} {l : List α} {l' : List β} : mapAll f l = some l' ↔ l.map f = l'.map some := by
  induction l generalizing l' with
  | nil => cases l' <;> simp [mapAll]
  | cons x xs ih =>
    rw [mapAll]
    cases hx : f x with
    | none => cases l' <;> simp [hx]
    | some y =>
      cases hm : mapAll f xs with
      | none =>
        cases l' with
        | nil => simp
        | cons z zs =>
          have := (ih (l' := zs)).2
          rw [hm] at this
          simp only [Option.bind_some, Option.map_none, List.map_cons, List.cons.injEq]
          constructor
          · intro h; cases h
          · rintro ⟨_, h⟩; cases this h
      | some ys =>
        have h1 := ih.1 hm
        cases l' with
        | nil => simp
        | cons z zs =>
          simp only [Option.bind_some, Option.map_some, Option.some.injEq, List.cons.injEq, List.map_cons, hx, h1]
          constructor
          · rintro ⟨rfl, rfl⟩; exact ⟨rfl, rfl⟩
          · rintro ⟨e1, e2⟩; exact ⟨e1, (List.map_inj_right (by intro _ _ h; cases h; rfl)).1 e2⟩

namespace GNode

/-- Induction over trees. -/
theorem ind {P : GNode → Prop} (h : ∀ nm a f s w desc, (∀ k ∈ desc, P k) → P (mk nm a f s w desc)) : ∀ n, P n := by
  intro n
  exact GNode.rec (motive_1 := P) (motive_2 := fun l => ∀ k ∈ l, P k) (fun nm a f s w desc ih => h nm a f s w desc ih)
    (by simp) (fun k ks h1 h2 x hx => by
      rcases List.mem_cons.1 hx with e | e
      · rw [e]; exact h1
      · exact h2 x e) n

@[simp] theorem name_mk (nm : List Str) (a : Nat) (f : Bool) (s : Nat) (w : Option Nat) (l : List GNode) : (mk nm a f s w l).name = nm := rfl
@[simp] theorem addr_mk (nm : List Str) (a : Nat) (f : Bool) (s : Nat) (w : Option Nat) (l : List GNode) : (mk nm a f s w l).addr = a := rfl
@[simp] theorem flag_mk (nm : List Str) (a : Nat) (f : Bool) (s : Nat) (w : Option Nat) (l : List GNode) : (mk nm a f s w l).flag = f := rfl
@[simp] theorem size_mk (nm : List Str) (a : Nat) (f : Bool) (s : Nat) (w : Option Nat) (l : List GNode) : (mk nm a f s w l).size = s := rfl
@[simp] theorem width_mk (nm : List Str) (a : Nat) (f : Bool) (s : Nat) (w : Option Nat) (l : List GNode) : (mk nm a f s w l).width = w := rfl
@[simp] theorem desc_mk (nm : List Str) (a : Nat) (f : Bool) (s : Nat) (w : Option Nat) (l : List GNode) : (mk nm a f s w l).desc = l := rfl

theorem flaggedL_eq (l : List GNode) : flaggedL l = l.flatMap fun k => if k.flag then [k] else flagged k := by
  induction l with
  | nil => rfl
  | cons k ks ih => rw [flaggedL, ih]; rfl

theorem flagged_eq (n : GNode) : flagged n = flaggedL n.desc := by cases n; rw [flagged]; rfl

theorem getDescL_eq (l : List GNode) : getDescL l = l.flatMap fun k => k :: getDesc k := by
  induction l with
  | nil => rfl
  | cons k ks ih => rw [getDescL, ih]; rfl

theorem getDesc_eq (n : GNode) : getDesc n = getDescL n.desc := by cases n; rw [getDesc]; rfl

theorem getLeavesL_eq (l : List GNode) :
    getLeavesL l = l.flatMap fun k => if k.flag then [] else if k.desc.isEmpty then [k] else getLeaves k := by
  induction l with
  | nil => rfl
  | cons k ks ih => rw [getLeavesL, ih]; rfl

theorem getLeaves_eq (n : GNode) : getLeaves n = getLeavesL n.desc := by cases n; rw [getLeaves]; rfl

theorem mem_getDescL {l : List GNode} {g : GNode} : g ∈ getDescL l ↔ ∃ k ∈ l, g = k ∨ g ∈ getDesc k := by
  rw [getDescL_eq, List.mem_flatMap]; simp

theorem mem_flaggedL {l : List GNode} {g : GNode} : g ∈ flaggedL l ↔ ∃ k ∈ l, (k.flag = true ∧ g = k) ∨ (k.flag = false ∧ g ∈ flagged k) := by
  rw [flaggedL_eq, List.mem_flatMap]
  constructor
  · rintro ⟨k, hk, h⟩
    refine ⟨k, hk, ?_⟩
    cases hf : k.flag with
    | true => rw [hf] at h; simp at h; exact .inl ⟨rfl, h⟩
    | false => rw [hf] at h; simp at h; exact .inr ⟨rfl, h⟩
  · rintro ⟨k, hk, ⟨hf, h⟩ | ⟨hf, h⟩⟩
    · exact ⟨k, hk, by rw [hf]; simp [h]⟩
    · exact ⟨k, hk, by rw [hf]; simpa using h⟩

theorem mem_getLeavesL {l : List GNode} {g : GNode} : g ∈ getLeavesL l ↔
    ∃ k ∈ l, k.flag = false ∧ ((k.desc = [] ∧ g = k) ∨ (k.desc ≠ [] ∧ g ∈ getLeaves k)) := by
  rw [getLeavesL_eq, List.mem_flatMap]
  constructor
  · rintro ⟨k, hk, h⟩
    refine ⟨k, hk, ?_⟩
    cases hf : k.flag with
    | true => rw [hf] at h; simp at h
    | false =>
      rw [hf] at h
      cases hd : k.desc with
      | nil => rw [hd] at h; simp at h; exact ⟨rfl, .inl ⟨rfl, h⟩⟩
      | cons x xs => rw [hd] at h; simp at h; exact ⟨rfl, .inr ⟨by simp, h⟩⟩
  · rintro ⟨k, hk, hf, ⟨hd, h⟩ | ⟨hd, h⟩⟩
    · exact ⟨k, hk, by rw [hf, hd]; simp [h]⟩
    · refine ⟨k, hk, ?_⟩
      rw [hf]
      cases hd' : k.desc with
      | nil => exact absurd hd' hd
      | cons x xs => simpa using h

theorem flaggedL_perm {l l' : List GNode} (h : l.Perm l') : (flaggedL l).Perm (flaggedL l') := by
  rw [flaggedL_eq, flaggedL_eq]; exact h.flatMap_right _

theorem getDescL_perm {l l' : List GNode} (h : l.Perm l') : (getDescL l).Perm (getDescL l') := by
  rw [getDescL_eq, getDescL_eq]; exact h.flatMap_right _

theorem getLeavesL_perm {l l' : List GNode} (h : l.Perm l') : (getLeavesL l).Perm (getLeavesL l') := by
  rw [getLeavesL_eq, getLeavesL_eq]; exact h.flatMap_right _

/-! ### Endpoints, and what is below them -/

theorem flagged_desc {l : List GNode} {e : GNode} (h : e ∈ flaggedL l) : e.flag = true ∧ e ∈ getDescL l := by
  have key : ∀ k : GNode, ∀ e ∈ flagged k, e.flag = true ∧ e ∈ getDesc k := by
    intro k
    induction k using ind with
    | h nm a f s w desc ih =>
      intro e he
      rw [flagged_eq, desc_mk, mem_flaggedL] at he
      rw [getDesc_eq, desc_mk, mem_getDescL]
      obtain ⟨k, hk, ⟨hf, rfl⟩ | ⟨hf, he⟩⟩ := he
      · exact ⟨hf, e, hk, .inl rfl⟩
      · obtain ⟨h1, h2⟩ := ih k hk e he
        exact ⟨h1, k, hk, .inr h2⟩
  have := key (.mk [] 0 false 0 none l) e (by rw [flagged_eq]; exact h)
  rwa [getDesc_eq] at this

/-- Every flagged node is an outermost one or below one. -/
theorem flagged_above {l : List GNode} {g : GNode} (h : g ∈ getDescL l) (hf : g.flag = true) : ∃ e ∈ flaggedL l, g = e ∨ g ∈ getDesc e := by
  have key : ∀ k : GNode, ∀ g ∈ getDesc k, g.flag = true → ∃ e ∈ flagged k, g = e ∨ g ∈ getDesc e := by
    intro k
    induction k using ind with
    | h nm a f s w desc ih =>
      intro g hg hf
      rw [getDesc_eq, desc_mk, mem_getDescL] at hg
      rw [flagged_eq, desc_mk]
      obtain ⟨k, hk, hg⟩ := hg
      cases hkf : k.flag with
      | true => exact ⟨k, mem_flaggedL.2 ⟨k, hk, .inl ⟨hkf, rfl⟩⟩, hg⟩
      | false =>
        rcases hg with rfl | hg
        · rw [hf] at hkf; cases hkf
        · obtain ⟨e, he, h⟩ := ih k hk g hg hf
          exact ⟨e, mem_flaggedL.2 ⟨k, hk, .inr ⟨hkf, he⟩⟩, h⟩
  have := key (.mk [] 0 false 0 none l) g (by rw [getDesc_eq]; exact h) hf
  rwa [flagged_eq] at this

/-- Every leaf that is not below an endpoint is one of `get_leaves`. -/
theorem leaf_above {l : List GNode} {g : GNode} (h : g ∈ getDescL l) (hd : g.desc = []) :
    g ∈ getLeavesL l ∨ ∃ e ∈ flaggedL l, g = e ∨ g ∈ getDesc e := by
  have key : ∀ k : GNode, ∀ g ∈ getDesc k, g.desc = [] → g ∈ getLeaves k ∨ ∃ e ∈ flagged k, g = e ∨ g ∈ getDesc e := by
    intro k
    induction k using ind with
    | h nm a f s w desc ih =>
      intro g hg hd
      rw [getDesc_eq, desc_mk, mem_getDescL] at hg
      rw [flagged_eq, getLeaves_eq, desc_mk]
      obtain ⟨k, hk, hg⟩ := hg
      cases hkf : k.flag with
      | true => exact .inr ⟨k, mem_flaggedL.2 ⟨k, hk, .inl ⟨hkf, rfl⟩⟩, hg⟩
      | false =>
        rcases hg with rfl | hg
        · exact .inl (mem_getLeavesL.2 ⟨g, hk, hkf, .inl ⟨hd, rfl⟩⟩)
        · have hne : k.desc ≠ [] := by
            intro e
            rw [getDesc_eq, e, getDescL_eq] at hg
            simp at hg
          rcases ih k hk g hg hd with h | ⟨e, he, h⟩
          · exact .inl (mem_getLeavesL.2 ⟨k, hk, hkf, .inr ⟨hne, h⟩⟩)
          · exact .inr ⟨e, mem_flaggedL.2 ⟨k, hk, .inr ⟨hkf, he⟩⟩, h⟩
  have := key (.mk [] 0 false 0 none l) g (by rw [getDesc_eq]; exact h) hd
  rwa [flagged_eq, getLeaves_eq] at this

/-! ### Names -/

/-- The nodes of a list are the children of a node called `p`, all the way down, and siblings have different names. -/
inductive Named : List Str → List GNode → Prop
  | mk {p : List Str} {l : List GNode} : (l.map name).Nodup → (∀ k ∈ l, ∃ x, k.name = p ++ [x]) → (∀ k ∈ l, Named k.name k.desc) → Named p l

theorem Named.under {p : List Str} {l : List GNode} (h : Named p l) {g : GNode} (hg : g ∈ getDescL l) : ∃ y ys, g.name = p ++ y :: ys := by
  induction h with
  | @mk p l _ h2 h3 ih =>
    obtain ⟨k, hk, hg⟩ := mem_getDescL.1 hg
    obtain ⟨x, hx⟩ := h2 k hk
    rcases hg with rfl | hg
    · exact ⟨x, [], hx⟩
    · rw [getDesc_eq] at hg
      obtain ⟨y, ys, e⟩ := ih k hk hg
      exact ⟨x, y :: ys, by rw [e, hx]; simp⟩

theorem prefix_snoc {p : List Str} {x y : Str} {ys : List Str} (h : p ++ [x] <+: p ++ y :: ys) : x = y := by
  rw [List.prefix_append_right_inj, List.cons_prefix_cons] at h
  exact h.1

theorem nodup_name {l : List GNode} (h : (l.map name).Nodup) {a b : GNode} (ha : a ∈ l) (hb : b ∈ l) (e : a.name = b.name) : a = b := by
  induction l with
  | nil => cases ha
  | cons x l ih =>
    rw [List.map_cons, List.nodup_cons] at h
    rcases List.mem_cons.1 ha with rfl | ha <;> rcases List.mem_cons.1 hb with rfl | hb
    · rfl
    · exact absurd (List.mem_map.2 ⟨b, hb, e.symm⟩) h.1
    · exact absurd (List.mem_map.2 ⟨a, by assumption, e⟩) h.1
    · exact ih h.2 ha hb

/-- What has the name of a child in front is the child or below it. -/
theorem Named.kid {p : List Str} {l : List GNode} (h : Named p l) {k g : GNode} (hk : k ∈ l) (hg : g ∈ getDescL l) (hp : k.name <+: g.name) :
    g = k ∨ g ∈ getDesc k := by
  obtain ⟨h1, h2, h3⟩ := h
  obtain ⟨k', hk', hg'⟩ := mem_getDescL.1 hg
  obtain ⟨x, hx⟩ := h2 k hk
  obtain ⟨x', hx'⟩ := h2 k' hk'
  have hpre : k'.name <+: g.name := by
    rcases hg' with rfl | hg'
    · exact List.prefix_rfl
    · rw [getDesc_eq] at hg'
      obtain ⟨y, ys, e⟩ := (h3 k' hk').under hg'
      rw [e]; exact List.prefix_append _ _
  have hle : k.name.length = k'.name.length := by rw [hx, hx']; simp
  have e : k.name = k'.name := by
    rw [List.prefix_iff_eq_take] at hp hpre
    rw [hp, hpre, hle]
  rw [nodup_name h1 hk hk' e]
  exact hg'

/-- What has the name of an outermost endpoint in front is the endpoint or below it. -/
theorem Named.endpoint {p : List Str} {l : List GNode} (h : Named p l) {e g : GNode} (he : e ∈ flaggedL l) (hg : g ∈ getDescL l) (hp : e.name <+: g.name) :
    g = e ∨ g ∈ getDesc e := by
  induction h with
  | @mk p l h1 h2 h3 ih =>
    obtain ⟨k, hk, ⟨hf, rfl⟩ | ⟨hf, he⟩⟩ := mem_flaggedL.1 he
    · exact Named.kid (.mk h1 h2 h3) hk hg hp
    · rw [flagged_eq] at he
      obtain ⟨y, ys, e1⟩ := (h3 k hk).under (flagged_desc he).2
      have hkp : k.name <+: g.name := List.IsPrefix.trans ⟨y :: ys, e1.symm⟩ hp
      rcases Named.kid (.mk h1 h2 h3) hk hg hkp with rfl | hg
      · exfalso
        have := hp.length_le
        rw [e1] at this; simp at this; omega
      · rw [getDesc_eq] at hg
        exact ih k hk he hg

/-- No endpoint is above an outermost one. -/
theorem Named.outermost {p : List Str} {l : List GNode} (h : Named p l) {e g : GNode} (he : e ∈ flaggedL l) (hg : g ∈ getDescL l) (hf : g.flag = true)
    (hp : g.name <+: e.name) : g = e := by
  induction h with
  | @mk p l h1 h2 h3 ih =>
    obtain ⟨k, hk, hke⟩ := mem_flaggedL.1 he
    have hkp : k.name <+: e.name := by
      rcases hke with ⟨_, rfl⟩ | ⟨_, he⟩
      · exact List.prefix_rfl
      · rw [flagged_eq] at he
        obtain ⟨y, ys, e1⟩ := (h3 k hk).under (flagged_desc he).2
        exact ⟨y :: ys, e1.symm⟩
    obtain ⟨k', hk', hg'⟩ := mem_getDescL.1 hg
    have hkg : k'.name <+: g.name := by
      rcases hg' with rfl | hg'
      · exact List.prefix_rfl
      · rw [getDesc_eq] at hg'
        obtain ⟨y, ys, e⟩ := (h3 k' hk').under hg'
        rw [e]; exact List.prefix_append _ _
    have hkk : k' = k := by
      apply nodup_name h1 hk' hk
      have q := hkg.trans hp
      obtain ⟨x, hx⟩ := h2 k hk
      obtain ⟨x', hx'⟩ := h2 k' hk'
      have hle : k.name.length = k'.name.length := by rw [hx, hx']; simp
      rw [List.prefix_iff_eq_take] at q hkp
      rw [q, hkp, hle]
    subst hkk
    rcases hke with ⟨hkf, rfl⟩ | ⟨hkf, he⟩
    · rcases hg' with rfl | hg'
      · rfl
      · exfalso
        rw [getDesc_eq] at hg'
        obtain ⟨y, ys, e⟩ := (h3 e hk).under hg'
        have := hp.length_le
        rw [e] at this; simp at this; omega
    · rcases hg' with rfl | hg'
      · rw [hf] at hkf; cases hkf
      · rw [flagged_eq] at he
        rw [getDesc_eq] at hg'
        exact ih k' hk he hg'

theorem Named.nodup {p : List Str} {l : List GNode} (h : Named p l) : ((getDescL l).map name).Nodup := by
  induction h with
  | @mk p l h1 h2 h3 ih =>
    induction l with
    | nil => simp [getDescL]
    | cons k ks ihl =>
      rw [List.map_cons, List.nodup_cons] at h1
      rw [getDescL_eq, List.flatMap_cons, ← getDescL_eq, List.map_append, List.nodup_append]
      have hks : Named p ks := .mk h1.2 (fun k hk => h2 k (by simp [hk])) (fun k hk => h3 k (by simp [hk]))
      refine ⟨?_, ihl h1.2 (fun k hk => h2 k (by simp [hk])) (fun k hk => h3 k (by simp [hk])) (fun k hk => ih k (by simp [hk])), ?_⟩
      · rw [List.map_cons, List.nodup_cons, getDesc_eq]
        refine ⟨?_, ih k (by simp)⟩
        intro hm
        obtain ⟨g, hg, e⟩ := List.mem_map.1 hm
        obtain ⟨y, ys, e'⟩ := (h3 k (by simp)).under hg
        rw [e'] at e
        have := congrArg List.length e
        simp at this
      · intro a ha b hb e
        subst e
        obtain ⟨g, hg, rfl⟩ := List.mem_map.1 ha
        obtain ⟨g', hg', e⟩ := List.mem_map.1 hb
        have hkg : k.name <+: g.name := by
          rcases List.mem_cons.1 hg with rfl | hg
          · exact List.prefix_rfl
          · rw [getDesc_eq] at hg
            obtain ⟨y, ys, e⟩ := (h3 k (by simp)).under hg
            rw [e]; exact List.prefix_append _ _
        obtain ⟨k', hk', hg'⟩ := mem_getDescL.1 hg'
        have hkg' : k'.name <+: g.name := by
          rw [← e]
          rcases hg' with rfl | hg'
          · exact List.prefix_rfl
          · rw [getDesc_eq] at hg'
            obtain ⟨y, ys, e⟩ := (h3 k' (by simp [hk'])).under hg'
            rw [e]; exact List.prefix_append _ _
        apply h1.1
        obtain ⟨x, hx⟩ := h2 k (by simp)
        obtain ⟨x', hx'⟩ := h2 k' (by simp [hk'])
        have hle : k.name.length = k'.name.length := by rw [hx, hx']; simp
        rw [List.prefix_iff_eq_take] at hkg hkg'
        exact List.mem_map.2 ⟨k', hk', by rw [hkg, hkg', hle]⟩

end GNode
end Verif
