import Verif.Spec.HwStruct
import Verif.Lemmas.Dump
import Verif.Props.C81
/-!
# The Python copy of the hardware: lemmas
-/

set_option autoImplicit false
set_option linter.unusedSimpArgs false

namespace Verif.HwStruct
open Verif Node Spec

mutual
/-- The attributes of an item and all below. -/
def Item.flat : Item → List Entry
  | .mk e kids => e :: flats kids
def flats : List Item → List Entry
  | [] => []
  | k :: ks => k.flat ++ flats ks
end

theorem flats_eq (l : List Item) : flats l = (l.map Item.flat).flatten := by
  induction l with
  | nil => rfl
  | cons k ks ih => rw [flats, ih]; rfl

theorem attr_all (l : List Item) (h : ∀ k ∈ l, HwAttr k k.flat) (i : Nat) (k : Item) (x : List Entry) (hk : l[i]? = some k) (hx : (l.map Item.flat)[i]? = some x) : HwAttr k x := by
  rw [List.getElem?_map, hk] at hx
  cases hx
  exact h k (List.mem_of_getElem? hk)

mutual
theorem attr_flat : ∀ it : Item, HwAttr it it.flat
  | .mk e kids => by
    rw [Item.flat, flats_eq]
    exact .mk (by simp) (attr_all kids (attr_flats kids))
theorem attr_flats : ∀ l : List Item, ∀ k ∈ l, HwAttr k k.flat
  | [], _, h => by cases h
  | x :: l, k, h => by
    rcases List.mem_cons.1 h with h | h
    · rw [h]; exact attr_flat x
    · exact attr_flats l k h
end

/-- The attributes of a line below the path `Q`. -/
def under (Q : List Str) (r : Row) : Entry := ⟨dots (Q ++ r.path), dots (Q ++ r.path).dropLast, r.addr, r.mode, r.perm, r.mask, r.size, r.info.tags⟩

theorem entry_id (Q : List Str) (hQ : ∀ y ∈ Q, y ≠ []) (d : NodeData) (hd : d.uid ≠ []) : (entry (dots Q) d).id = dots (Q ++ [d.uid]) := by
  have h := Gui.dots_snoc Q d.uid hQ hd
  rw [← h]
  unfold entry Gui.rowId
  cases Q with
  | nil => simp [dots, hd]
  | cons y Q =>
    have hne : dots (y :: Q) ≠ [] := dots_ne (by simp) hQ
    simp [hne]

theorem entry_under (Q : List Str) (hQ : ∀ y ∈ Q, y ≠ []) (d : NodeData) (hd : d.uid ≠ []) : entry (dots Q) d = under Q ⟨[d.uid], d.addr, d.mode, d.mask, d.perm, d.size, d.info⟩ := by
  have h := entry_id Q hQ d hd
  have e : entry (dots Q) d = { entry (dots Q) d with id := dots (Q ++ [d.uid]) } := by rw [← h]
  rw [e]
  simp [entry, under, NodeData.info]

theorem under_under (Q : List Str) (u : Str) (r : Row) : under Q (Row.under u r) = under (Q ++ [u]) r := by
  simp [under, Row.under]

theorem parents_perm {n : Node} (hg : GoodIds n) (hu : UniqueIds n) : (parents n).Perm (n.kids.map fun k => k.d.uid) := by
  refine (Dump.sort_perm _).trans ?_
  show (Gui.top n).Perm _
  have hn : (Gui.top n).Nodup := (C33_distinct hg hu).filter _
  have hk : (n.kids.map fun k => k.d.uid).Nodup := by cases hu with | mk h _ => exact h
  rw [List.perm_ext_iff_of_nodup hn hk]
  intro s
  constructor
  · intro hs
    have hs' : s ∈ n.getNodes := (List.mem_filter.1 hs).1
    obtain ⟨p, hp, rfl⟩ := List.mem_map.1 hs'
    obtain ⟨hne, v, hv⟩ := (mem_positions n p).1 hp
    obtain ⟨i, rfl⟩ := List.length_eq_one_iff.1 ((Gui.mem_top hg hne hv).1 hs)
    rw [sub?_cons] at hv
    cases hk : n.kids[i]? with
    | none => rw [hk] at hv; cases hv
    | some k =>
      rw [relPath_eq hg]
      have : n.ids [i] = [k.d.uid] := by simp [ids, lineage, hk]
      rw [this]
      exact List.mem_map.2 ⟨k, List.mem_of_getElem? hk, rfl⟩
  · intro hs
    obtain ⟨k, hk, rfl⟩ := List.mem_map.1 hs
    obtain ⟨i, hi⟩ := List.getElem?_of_mem hk
    have hv : n.sub? [i] = some k := by simp [sub?_cons, hi]
    have h := (Gui.mem_top hg (by simp) hv).2 rfl
    rw [relPath_eq hg] at h
    have : n.ids [i] = [k.d.uid] := by simp [ids, lineage, hi]
    rwa [this] at h

theorem perm_map_inv {α β : Type} (f : α → β) {l m : List β} (h : l.Perm m) : ∀ ks : List α, m = ks.map f → ∃ ks' : List α, l = ks'.map f ∧ ks'.Perm ks := by
  induction h with
  | nil => intro ks e; exact ⟨[], rfl, by cases ks with | nil => exact .nil | cons => simp at e⟩
  | cons x h ih =>
    intro ks e
    cases ks with
    | nil => simp at e
    | cons k ks =>
      simp only [List.map_cons, List.cons.injEq] at e
      obtain ⟨ks', h1, h2⟩ := ih ks e.2
      exact ⟨k :: ks', by rw [h1, e.1]; rfl, h2.cons k⟩
  | swap x y l =>
    intro ks e
    match ks, e with
    | a :: b :: ks, e =>
      simp only [List.map_cons, List.cons.injEq] at e
      exact ⟨b :: a :: ks, by rw [e.1, e.2.1, e.2.2]; rfl, .swap ..⟩
  | trans _ _ ih1 ih2 =>
    intro ks e
    obtain ⟨k1, e1, p1⟩ := ih2 ks e
    obtain ⟨k2, e2, p2⟩ := ih1 k1 e1
    exact ⟨k2, e2, p2.trans p1⟩

theorem getNode_kid {n k : Node} (hg : GoodIds n) (hu : UniqueIds n) (hk : k ∈ n.kids) : (n.getNode k.d.uid).bind n.sub? = some k := by
  obtain ⟨i, hi⟩ := List.getElem?_of_mem hk
  have hv : n.sub? [i] = some k := by simp [sub?_cons, hi]
  have : n.ids [i] = [k.d.uid] := by simp [ids, lineage, hi]
  have h := (C33_lookup hg hu k.d.uid [i]).2 ⟨⟨k, hv⟩, by rw [relPath_eq hg, this]; rfl⟩
  rw [h]
  exact hv

theorem loop_map {n : Node} (hg : GoodIds n) (hu : UniqueIds n) (rec : Node → Option Item) (g : Node → Item) : ∀ ks : List Node, (∀ k ∈ ks, k ∈ n.kids) → (∀ k ∈ ks, rec k = some (g k)) →
    loop rec n (ks.map fun k => k.d.uid) = some (ks.map g)
  | [], _, _ => rfl
  | k :: ks, h1, h2 => by
    simp only [List.map_cons, loop, getNode_kid hg hu (h1 k (by simp)), h2 k (by simp)]
    rw [loop_map hg hu rec g ks (fun x hx => h1 x (by simp [hx])) (fun x hx => h2 x (by simp [hx]))]
    rfl

theorem inFront_append (p : Str) {a b : Str} (h : InFront a b) : InFront (p ++ a) (p ++ b) := by
  rcases h with h | ⟨q, x, y, s, t, rfl, rfl, hlt⟩
  · exact .inl (by simpa using h)
  · exact .inr ⟨p ++ q, x, y, s, t, by simp, by simp, hlt⟩

/-- A node below the path `Q` is copied as it should be. -/
structure Fine (Q : List Str) (k : Node) (it : Item) : Prop where
  top : ∃ ks, it = .mk (entry (dots Q) k.d) ks ∧ HwTidy (dots (Q ++ [k.d.uid])) ks
  flat : it.flat.Perm (k.table.map (under Q))

theorem kids_ok {n : Node} (hg : GoodIds n) (hu : UniqueIds n) (Q : List Str) (hQ : ∀ y ∈ Q, y ≠ []) (rec : Node → Option Item)
    (hrec : ∀ k ∈ n.kids, ∃ it, rec k = some it ∧ Fine Q k it) :
    ∃ l, loop rec n (parents n) = some l ∧ (flats l).Perm ((n.kids.flatMap Node.table).map (under Q)) ∧ HwTidy (dots Q) l := by
  have hg' : ∀ k ∈ n.kids, k.d.uid ≠ [] := by
    intro k hk
    obtain ⟨i, hi⟩ := List.getElem?_of_mem hk
    exact (hg.kid hi).1.1
  let g : Node → Item := fun k => (rec k).getD (.mk (entry [] n.d) [])
  have hgk : ∀ k ∈ n.kids, rec k = some (g k) ∧ Fine Q k (g k) := by
    intro k hk
    obtain ⟨it, h1, h2⟩ := hrec k hk
    have : g k = it := by simp [g, h1]
    exact ⟨by rw [this, h1], by rw [this]; exact h2⟩
  obtain ⟨ks, e, hp⟩ := perm_map_inv (fun k : Node => k.d.uid) (parents_perm hg hu) n.kids rfl
  have hin : ∀ k ∈ ks, k ∈ n.kids := fun k hk => hp.mem_iff.1 hk
  refine ⟨ks.map g, by rw [e]; exact loop_map hg hu rec g ks hin fun k hk => (hgk k (hin k hk)).1, ?_, ?_⟩
  · refine List.Perm.trans ?_ ((hp.flatMap_right Node.table).map (under Q))
    clear e hp
    induction ks with
    | nil => exact .nil
    | cons k ks ih =>
      rw [List.map_cons, flats, List.flatMap_cons, List.map_append]
      exact ((hgk k (hin k (by simp))).2.flat).append (ih fun x hx => hin x (by simp [hx]))
  · have hent : ∀ k ∈ ks, ∀ e' ks', g k = .mk e' ks' → e' = entry (dots Q) k.d ∧ HwTidy (dots (Q ++ [k.d.uid])) ks' := by
      intro k hk e' ks' h
      obtain ⟨ks2, h1, h2⟩ := (hgk k (hin k hk)).2.top
      rw [h1] at h
      cases h
      exact ⟨rfl, h2⟩
    refine .mk ?_ ?_ ?_
    · rw [List.pairwise_map]
      have hs : (ks.map fun k => k.d.uid).Pairwise fun a b => Dump.strLe a b = true := by rw [← e]; exact Dump.sort_sorted _
      have hn : (ks.map fun k => k.d.uid).Pairwise fun a b => a ≠ b := by
        rw [← e]
        exact (parents_perm hg hu).nodup_iff.2 (by cases hu with | mk h _ => exact h)
      rw [List.pairwise_map] at hs hn
      refine List.Pairwise.imp_of_mem ?_ (hs.and hn)
      rintro a b ha hb ⟨h1, h2⟩ e1 k1 e2 k2 x1 x2
      rw [(hent a ha _ _ x1).1, (hent b hb _ _ x2).1]
      have h3 := Dump.inFront_of_le _ _ h1
      unfold entry
      split
      · refine ⟨?_, by simpa using h2⟩
        have := inFront_append (dots Q ++ ['.']) h3
        simpa using this
      · exact ⟨h3, h2⟩
    · intro e' ks' h
      obtain ⟨k, hk, h⟩ := List.mem_map.1 h
      rw [(hent k hk _ _ h).1]; rfl
    · intro e' ks' h
      obtain ⟨k, hk, h⟩ := List.mem_map.1 h
      rw [(hent k hk _ _ h).1, entry_id Q hQ k.d (hg' k (hin k hk))]
      exact (hent k hk _ _ h).2

theorem node_ok (n : Node) : GoodIds n → UniqueIds n → n.d.uid ≠ [] → ∀ (Q : List Str), (∀ y ∈ Q, y ≠ []) → ∀ fuel, n.count ≤ fuel → ∃ it, node fuel (dots Q) n = some it ∧ Fine Q n it := by
  induction n using Node.ind with
  | h d kids ih =>
    intro hg hu hd Q hQ fuel hf
    cases fuel with
    | zero => have := count_pos (Node.mk d kids); omega
    | succ fuel =>
      have hQ' : ∀ y ∈ Q ++ [d.uid], y ≠ [] := by
        intro y hy
        rcases List.mem_append.1 hy with h | h
        · exact hQ y h
        · rw [List.mem_singleton.1 h]; exact hd
      obtain ⟨l, h1, h2, h3⟩ := kids_ok hg hu (Q ++ [d.uid]) hQ' (node fuel (dots (Q ++ [d.uid]))) (by
        intro k hk
        have hc := Gui.count_kid hk
        obtain ⟨i, hi⟩ := List.getElem?_of_mem hk
        exact ih k hk (hg.kid hi).2 (hu.kid hi).2 (hg.kid hi).1.1 _ hQ' fuel (by omega))
      refine ⟨.mk (entry (dots Q) d) l, ?_, ⟨l, rfl, h3⟩, ?_⟩
      · show (loop (node fuel (entry (dots Q) d).id) _ _).map _ = _
        rw [entry_id Q hQ d hd, h1]
        rfl
      · rw [Item.flat, Node.table_mk, List.map_cons, entry_under Q hQ d hd, List.map_map]
        refine .cons _ ?_
        refine h2.trans ?_
        rw [show under Q ∘ Row.under d.uid = under (Q ++ [d.uid]) from funext fun r => under_under Q d.uid r]
        exact List.Perm.refl _

theorem device_ok {n : Node} (hg : GoodIds n) (hu : UniqueIds n) : ∃ l, device n = some l ∧ HwCopy n.table l := by
  obtain ⟨l, h1, h2, h3⟩ := kids_ok hg hu [] (by simp) (node n.count []) (by
    intro k hk
    have hc := Gui.count_kid hk
    obtain ⟨i, hi⟩ := List.getElem?_of_mem hk
    exact node_ok k (hg.kid hi).2 (hu.kid hi).2 (hg.kid hi).1.1 [] (by simp) n.count (by omega))
  refine ⟨l, h1, h3, l.map Item.flat, by simp, attr_all l (attr_flats l), ?_⟩
  rw [← flats_eq]
  refine h2.trans ?_
  cases n with
  | mk d kids =>
    rw [Node.table_mk, List.filter_cons_of_neg (by simp)]
    have hne : ∀ r ∈ kids.flatMap Node.table, r.path ≠ [] := by
      intro r hr
      obtain ⟨k, hk, hr⟩ := List.mem_flatMap.1 hr
      obtain ⟨p, v, _, rfl⟩ := (mem_table k r).1 hr
      simp [rowOf]
    rw [List.filter_eq_self.2 (by
      intro r hr
      obtain ⟨r', hr', rfl⟩ := List.mem_map.1 hr
      exact decide_eq_true (hne r' hr')), List.map_map]
    have : (hwLine ∘ Row.under d.uid) = under [] := by
      funext r
      simp [hwLine, Row.under, under, dots_eq]
    rw [this]
    exact List.Perm.refl _

end Verif.HwStruct
