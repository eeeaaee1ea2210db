import Verif.Lemmas.Gui
import Verif.Props.C60
/-!
# C81: the graphical user interface shows the registers it names

A table in the window has one row for each node at or below the selected one, with its path, address and mask, and after each turn of the monitoring thread the value of the register.
-/

set_option autoImplicit false
set_option linter.unusedSimpArgs false

namespace Verif
open Node Gui

namespace Spec

/-- The path below the device, joined by dots. -/
def Row.dotted (r : Row) : Str := (".".toList).intercalate r.path.tail

/-- The line `r` is that of a module: another line is below it. -/
def Inner (rows : List Row) (r : Row) : Prop := ∃ r' ∈ rows, r.path.tail <+: r'.path.tail ∧ r'.path.tail ≠ r.path.tail

/-- The lines of an address table which the table of the selected line `r0` must show. The line of the device itself is not shown. -/
def Wanted (rows : List Row) (r0 r : Row) : Prop := r ∈ rows ∧ r0.path.tail <+: r.path.tail ∧ r.path.tail ≠ []

/-- A row on the screen for the line `r`: `N/A` for modules; `0` for registers whose value is unknown. -/
structure OnScreen (rows : List Row) (value : Row → Option ValOut) (r : Row) (g : GRow) : Prop where
  id : g.id = r.dotted
  addr : g.addr = r.addr
  mask : g.mask = r.mask
  inner : Inner rows r → g.shown = .na
  reg : ¬ Inner rows r → g.shown = match value r with | some v => .val v | none => .zero

/-- The table on the screen: each wanted line has exactly one row, and there are no others. -/
structure Screen (rows : List Row) (value : Row → Option ValOut) (r0 : Row) (gs : List GRow) : Prop where
  distinct : (gs.map GRow.id).Nodup
  all : ∀ r, Wanted rows r0 r → ∃ g ∈ gs, OnScreen rows value r g
  only : ∀ g ∈ gs, ∃ r, Wanted rows r0 r ∧ OnScreen rows value r g

/-- A target whose registers may be read without effect. -/
def QuietReads {σ : Type} (tg : Target σ) : Prop := ∀ m a, (tg.rd m a).2 = m

/-- What a row should show after the device was read in the state `m`: the bits of the mask of readable registers. -/
def valueIn {σ : Type} (tg : Target σ) (m : σ) (r : Row) : Option ValOut :=
  if r.perm = .write then none else some (.data [fieldOf r.mask (tg.rd m r.addr).1])

end Spec
open Spec

/-! ### Lines and positions -/

namespace Gui

theorem goodIds_sub {n v : Node} (hg : GoodIds n) {p : List Nat} (hv : n.sub? p = some v) : GoodIds v := by
  induction p generalizing n with
  | nil => rw [sub?_nil] at hv; cases hv; exact hg
  | cons i is ih =>
    rw [sub?_cons] at hv
    cases hk : n.kids[i]? with
    | none => rw [hk] at hv; cases hv
    | some k => rw [hk] at hv; exact ih (hg.kid hk).2 hv

theorem inner_iff {n w : Node} (hu : UniqueIds n) {q : List Nat} (hw : n.sub? q = some w) : Inner n.table (rowOf (n.d.uid :: n.ids q) w.d) ↔ w.kids ≠ [] := by
  constructor
  · rintro ⟨r', hr', h1, h2⟩
    obtain ⟨q', w', hw', rfl⟩ := (mem_table n r').1 hr'
    simp only [rowOf, List.tail_cons] at h1 h2
    obtain ⟨s, rfl, hs⟩ := prefix_pos hu hw hw' h1
    cases s with
    | nil => simp at h2
    | cons i s =>
      intro e
      rw [sub?_cons, e] at hs
      simp at hs
  · intro hk
    obtain ⟨k, ks, e⟩ := List.exists_cons_of_ne_nil hk
    have hs : n.sub? (q ++ [0]) = some k := by rw [sub?_append, hw]; simp [sub?_cons, e]
    refine ⟨_, (mem_table n _).2 ⟨q ++ [0], k, hs, rfl⟩, ?_, ?_⟩
    · simp only [rowOf, List.tail_cons]
      rw [ids_append hw]; exact List.prefix_append _ _
    · simp only [rowOf, List.tail_cons]
      intro e'
      have := congrArg List.length e'
      rw [ids_length hs, ids_length hw] at this
      simp at this

/-- The rows of the node at a position, as in `Lemmas.Gui`. -/
theorem screen_of {n v : Node} (hg : GoodIds n) (hu : UniqueIds n) {p : List Nat} (hv : n.sub? p = some v) {L : List (List Nat)} (hL : L.Sublist (pre v))
    (hc : ∀ q, q ∈ L ↔ q ∈ pre v ∧ p ++ q ≠ []) {gs : List GRow} (hgs : gs.Perm (L.filterMap (rowOfPos (n.ids p) v))) :
    Screen n.table (fun _ => none) (rowOf (n.d.uid :: n.ids p) v.d) gs := by
  have hin : ∀ {q w}, n.sub? q = some w → (Inner n.table (rowOf (n.d.uid :: n.ids q) w.d) ↔ w.kids ≠ []) := fun hw => inner_iff hu hw
  have hon : ∀ {q w}, v.sub? q = some w → ∀ g, rowOfPos (n.ids p) v q = some g → OnScreen n.table (fun _ => none) (rowOf (n.d.uid :: n.ids (p ++ q)) w.d) g := by
    intro q w hw g h
    have hs : n.sub? (p ++ q) = some w := by rw [sub?_append, hv]; exact hw
    simp only [rowOfPos, hw, Option.map_some, Option.some.injEq] at h
    subst h
    refine ⟨?_, rfl, rfl, ?_, ?_⟩
    · simp only [Row.dotted, rowOf, List.tail_cons, ← dots_eq, ids_append hv]
    · intro h
      have := (hin hs).1 h
      cases hk : w.kids with
      | nil => exact absurd hk this
      | cons => simp
    · intro h
      have : w.kids = [] := Classical.byContradiction fun e => h ((hin hs).2 e)
      simp [this]
  refine ⟨?_, ?_, ?_⟩
  · exact (hgs.map _).nodup_iff.2 (rows_nodup hg hu hv hL)
  · rintro r ⟨hr, h1, h2⟩
    obtain ⟨q', w, hw, rfl⟩ := (mem_table n r).1 hr
    simp only [rowOf, List.tail_cons] at h1 h2
    obtain ⟨q, rfl, hq⟩ := prefix_pos hu hv hw h1
    have hne : p ++ q ≠ [] := by
      intro e; rw [e] at h2; simp [ids, lineage] at h2
    have hqL := (hc q).2 ⟨(mem_pre v q).2 ⟨w, hq⟩, hne⟩
    have hrow : ∃ g, rowOfPos (n.ids p) v q = some g := by simp [rowOfPos, hq]
    obtain ⟨g, hgr⟩ := hrow
    exact ⟨g, hgs.mem_iff.2 (List.mem_filterMap.2 ⟨q, hqL, hgr⟩), hon hq g hgr⟩
  · intro g hgm
    obtain ⟨q, hq, hg'⟩ := List.mem_filterMap.1 (hgs.mem_iff.1 hgm)
    obtain ⟨hq1, hq2⟩ := (hc q).1 hq
    obtain ⟨w, hw⟩ := (mem_pre v q).1 hq1
    have hs : n.sub? (p ++ q) = some w := by rw [sub?_append, hv]; exact hw
    refine ⟨_, ⟨(mem_table n _).2 ⟨p ++ q, w, hs, rfl⟩, ?_, ?_⟩, hon hw g hg'⟩
    · simp only [rowOf, List.tail_cons]; rw [ids_append hv]; exact List.prefix_append _ _
    · simp only [rowOf, List.tail_cons]
      intro e
      have := congrArg List.length e
      rw [ids_length hs] at this
      exact hq2 (List.length_eq_zero_iff.1 this)

theorem hwTree_find {ord : List Item → List Item} (hord : ∀ l, (ord l).Perm l) {devs : List (Str × Node)} (hn : (devs.map Prod.fst).Nodup)
    (hok : ∀ d ∈ devs, GoodIds d.2 ∧ UniqueIds d.2) :
    ∃ hw, hwTree ord devs = some hw ∧ ∀ name n, (name, n) ∈ devs →
      hw.find? (fun k => decide (k.id = name)) = some (.mk true name 0#32 0#32 (some (ord (canonL ord n.kids)))) := by
  have hm : devs.mapM (fun d => device ord d.1 d.2) = some (devs.map fun d => .mk true d.1 0#32 0#32 (some (ord (canonL ord d.2.kids)))) := by
    clear hn
    induction devs with
    | nil => rfl
    | cons d devs ih =>
      obtain ⟨h1, h2⟩ := hok d (by simp)
      rw [List.mapM_cons, ih fun x hx => hok x (by simp [hx]), device, build_eq ord d.2 h1 h2 _ (Nat.le_refl _)]
      rfl
  refine ⟨_, by rw [hwTree, hm]; rfl, ?_⟩
  intro name n hmem
  refine find_kid hord (k := .mk true name 0#32 0#32 (some (ord (canonL ord n.kids)))) ?_ (List.mem_map.2 ⟨(name, n), hmem, rfl⟩)
  rw [List.map_map]
  exact hn

end Gui

/-! ### The rows -/

section
variable {ord : List Gui.Item → List Gui.Item} {devs : List (Str × Node)} {name : Str} {n : Node} {r0 : Row}

/-- Selecting a line of the tree (the texts from the item up to the root) adds a table with a row for each node at or below it. `partial`: no device or node on the path is called `uTCA HW`,
and the last id of the path does not occur before on the path. -/
theorem C81_rows_partial (hord : ∀ l, (ord l).Perm l) (hn : (devs.map Prod.fst).Nodup) (hok : ∀ d ∈ devs, GoodIds d.2 ∧ UniqueIds d.2)
    (hd : (name, n) ∈ devs) (hr : r0 ∈ n.table) (hroot : rootText ∉ name :: r0.path.tail) (hlast : ∀ x, r0.path.tail.getLast? = some x → x ∉ r0.path.tail.dropLast) (count : Nat) :
    ∃ hw w, hwTree ord devs = some hw ∧ addWidget hw count (completeId ((name :: r0.path.tail).reverse ++ [rootText])) = some w ∧
      w.name = name ++ '_' :: (toString count).toList ∧ w.red = false ∧ Screen n.table (fun _ => none) r0 w.rows := by
  obtain ⟨hw, h1, h2⟩ := hwTree_find hord hn hok
  have hf := h2 name n hd
  obtain ⟨hg, hu⟩ := hok _ hd
  simp only [] at hg hu
  obtain ⟨p, v, hv, rfl⟩ := (mem_table n r0).1 hr
  simp only [rowOf, List.tail_cons] at hroot hlast ⊢
  rw [completeId_eq _ hroot]
  refine ⟨hw, ?_⟩
  have hpre : join (prefixNodes (name :: n.ids p)) = dots (n.ids p).dropLast := by rw [prefixNodes_eq name _ hlast, join_eq]
  by_cases hp : p = []
  · subst hp
    rw [sub?_nil] at hv; cases hv
    have e : n.ids [] = [] := by simp [ids, lineage]
    rw [e] at hpre
    refine ⟨⟨name ++ ['_'] ++ (toString count).toList, fills [] (ord (canonL ord n.kids)), false⟩, h1, ?_, ?_, ?_, ?_⟩
    · rw [addWidget, e, walk, hf]
      simp only [Item.kids, walk, hpre, fill]
      rfl
    · simp
    · rfl
    · refine screen_of (p := []) hg hu (sub?_nil n) (L := positions n) ?_ ?_ ?_
      · rw [positions_eq, pre_eq]; exact List.sublist_cons_self _ _
      · intro q
        rw [mem_positions, mem_pre, List.nil_append]
        exact and_comm
      · rw [e]; exact fills_device hord hg
  · have hw2 := walk_ids hord hu hv hp (some (.mk true name 0#32 0#32 (some (ord (canonL ord n.kids)))))
    obtain ⟨q, i, rfl⟩ := (eq_nil_or_snoc p).resolve_left hp
    obtain ⟨parent, hq, hi⟩ : ∃ parent, n.sub? q = some parent ∧ parent.kids[i]? = some v := by
      rw [sub?_append] at hv
      cases hx : n.sub? q with
      | none => rw [hx] at hv; cases hv
      | some x =>
        rw [hx] at hv
        simp only [Option.bind_some, sub?_cons] at hv
        cases hk : x.kids[i]? with
        | none => rw [hk] at hv; cases hv
        | some k => rw [hk] at hv; simp at hv; exact ⟨x, rfl, hv ▸ hk⟩
    have hids : n.ids (q ++ [i]) = n.ids q ++ [v.d.uid] := by
      rw [ids_append hq]; simp [ids, lineage, hi]
    have hgv : GoodIds v ∧ v.d.uid ≠ [] := by
      refine ⟨?_, ?_⟩
      · exact goodIds_sub hg hv
      · exact (ids_good hg (q ++ [i]) v.d.uid (by rw [hids]; simp)).1
    refine ⟨⟨name ++ ['_'] ++ (toString count).toList, fill (dots (n.ids q)) (.mk false v.d.uid v.d.addr v.d.mask (canon ord v).kids), false⟩, h1, ?_, ?_, ?_, ?_⟩
    · rw [addWidget, walk, hf]
      simp only [Item.kids]
      rw [hw2, hpre, hids, List.dropLast_concat]
      have hcv : canon ord v = .mk false v.d.uid v.d.addr v.d.mask (canon ord v).kids := by cases v; rw [canon]; rfl
      rw [hcv]
      rfl
    · simp
    · rfl
    · refine screen_of hg hu hv (L := pre v) (List.Sublist.refl _) (by intro q'; simp) ?_
      rw [hids]
      have := fill_perm hord v hgv.1 hgv.2 (n.ids q) (fun y hy => (ids_good hg q y hy).1)
      have hcv : canon ord v = .mk false v.d.uid v.d.addr v.d.mask (canon ord v).kids := by cases v; rw [canon]; rfl
      rw [hcv] at this
      exact this

end

/-! ### Updates -/

theorem update_keys {w : Widget} {hw : List (Str × List (Str × ValOut))} {name : Str} (hname : name <:+: w.name) (hkey : name ∈ hw.map Prod.fst)
    (hother : ∀ x ∈ hw.map Prod.fst, x ≠ name → ¬ x <:+: w.name) :
    w.update hw = { w with red := false, rows := w.rows.map fun r => r.update ((hw.lookup name).getD []) } := by
  have hne : (hw.map (·.1)).filter (fun x => isIn x w.name) ≠ [] := by
    intro e
    rw [List.filter_eq_nil_iff] at e
    exact e name hkey ((isIn_iff _ _).2 hname)
  obtain ⟨x, l, hx⟩ := List.exists_cons_of_ne_nil hne
  have hm : x ∈ (hw.map (·.1)).filter (fun x => isIn x w.name) := by rw [hx]; simp
  obtain ⟨h1, h2⟩ := List.mem_filter.1 hm
  have e : x = name := Classical.byContradiction fun h => hother x h1 h ((isIn_iff _ _).1 h2)
  subst e
  rw [Widget.update, hx]

/-- The background is red exactly if no name of a device with values occurs in the name of the table. -/
theorem C81_red (w : Widget) (hw : List (Str × List (Str × ValOut))) : (w.update hw).red = true ↔ ∀ x ∈ hw.map Prod.fst, ¬ x <:+: w.name := by
  rw [Widget.update]
  cases h : (hw.map (·.1)).filter (fun x => isIn x w.name) with
  | nil =>
    rw [List.filter_eq_nil_iff] at h
    simp only [true_iff]
    intro x hx e
    exact h x hx ((isIn_iff _ _).2 e)
  | cons x l =>
    simp only [Bool.false_eq_true, false_iff]
    intro hall
    have hm : x ∈ (hw.map (·.1)).filter (fun x => isIn x w.name) := by rw [h]; simp
    obtain ⟨h1, h2⟩ := List.mem_filter.1 hm
    exact hall x h1 ((isIn_iff _ _).1 h2)

/-- A device without values: the rows stay as they are, on red. -/
theorem C81_missing (w : Widget) (hw : List (Str × List (Str × ValOut))) (h : ∀ x ∈ hw.map Prod.fst, ¬ x <:+: w.name) : w.update hw = { w with red := true } := by
  have : (hw.map (·.1)).filter (fun x => isIn x w.name) = [] := by
    rw [List.filter_eq_nil_iff]
    intro x hx e
    exact h x hx ((isIn_iff _ _).1 e)
  rw [Widget.update, this]

/-- After an update the table shows the values of the device, where there are any. `partial`: no name of another device occurs in the name of the table. -/
theorem C81_update_partial {rows : List Row} {value0 : Row → Option ValOut} {r0 : Row} {w : Widget} {hw : List (Str × List (Str × ValOut))} {name : Str}
    (hs : Screen rows value0 r0 w.rows) (hname : name <:+: w.name) (hkey : name ∈ hw.map Prod.fst) (hother : ∀ x ∈ hw.map Prod.fst, x ≠ name → ¬ x <:+: w.name)
    (hin : ∀ r, Wanted rows r0 r → Inner rows r → ((hw.lookup name).getD []).lookup r.dotted = none) :
    (w.update hw).red = false ∧ (w.update hw).name = w.name ∧
      Screen rows (fun r => (((hw.lookup name).getD []).lookup r.dotted).or (value0 r)) r0 (w.update hw).rows := by
  rw [update_keys hname hkey hother]
  refine ⟨rfl, rfl, ?_⟩
  generalize (hw.lookup name).getD [] = info at hin
  have hup : ∀ r g, Wanted rows r0 r → OnScreen rows value0 r g → OnScreen rows (fun r => (info.lookup r.dotted).or (value0 r)) r (g.update info) := by
    intro r g hw' h
    have hid := h.id
    cases hl : info.lookup r.dotted with
    | none =>
      have e : g.update info = g := by rw [GRow.update, hid, hl]
      rw [e]
      exact ⟨h.id, h.addr, h.mask, h.inner, fun hi => by rw [hl]; exact h.reg hi⟩
    | some v =>
      have e : g.update info = { g with shown := .val v } := by rw [GRow.update, hid, hl]
      rw [e]
      refine ⟨h.id, h.addr, h.mask, ?_, fun _ => by rw [hl]; rfl⟩
      intro hi
      rw [hin r hw' hi] at hl
      cases hl
  refine ⟨?_, ?_, ?_⟩
  · have e : (w.rows.map fun r => r.update info).map GRow.id = w.rows.map GRow.id := by
      rw [List.map_map]
      apply List.map_congr_left
      intro g _
      simp only [Function.comp_apply, GRow.update]
      cases info.lookup g.id <;> rfl
    rw [e]; exact hs.distinct
  · intro r hr
    obtain ⟨g, hg, ho⟩ := hs.all r hr
    exact ⟨_, List.mem_map.2 ⟨g, hg, rfl⟩, hup r g hr ho⟩
  · intro g hg
    obtain ⟨g0, hg0, rfl⟩ := List.mem_map.1 hg
    obtain ⟨r, hr, ho⟩ := hs.only g0 hg0
    exact ⟨r, hr, hup r g0 hr ho⟩

/-! ### Values -/

theorem tableRun_append {σ : Type} (v : Ver) (tg : Target σ) (rows : List Row) (a b : List DevCall) (m : σ) :
    tableRun v tg rows (a ++ b) m =
      ((tableRun v tg rows a m).1 ++ (tableRun v tg rows b (tableRun v tg rows a m).2).1, (tableRun v tg rows b (tableRun v tg rows a m).2).2) := by
  induction a generalizing m with
  | nil => rfl
  | cons x a ih =>
    cases x with
    | dispatch => simp only [List.cons_append, tableRun, ih]
    | node id call =>
      simp only [List.cons_append, tableRun]
      split <;> simp only [ih, List.cons_append]

theorem tableRun_length {σ : Type} (v : Ver) (tg : Target σ) (rows : List Row) (a : List DevCall) (m : σ) : (tableRun v tg rows a m).1.length = a.length := by
  induction a generalizing m with
  | nil => rfl
  | cons x a ih =>
    cases x with
    | dispatch => simp only [tableRun, List.length_cons, ih]
    | node id call =>
      simp only [tableRun]
      split <;> simp only [List.length_cons, ih]

/-- What the read of a node gives. -/
def readOf {σ : Type} (tg : Target σ) (rows : List Row) (m : σ) (s : Str) : Option (List W) :=
  (rowAt rows s).bind fun r => if r.perm = .write then none else some [fieldOf r.mask (tg.rd m r.addr).1]

theorem tableRun_reads {σ : Type} {v : Ver} {tg : Target σ} (hq : QuietReads tg) {rows : List Row} (L : List Str) (m : σ) :
    tableRun v tg rows (L.map (fun s => .node s .read) ++ [.dispatch]) m = (L.map (readOf tg rows m) ++ [some []], m) := by
  induction L with
  | nil => rfl
  | cons s L ih =>
    simp only [List.map_cons, List.cons_append, tableRun, readOf, Row.means]
    cases hr : rowAt rows s with
    | none => simp only [Option.bind_none, ih]
    | some r =>
      simp only [Option.bind_some]
      by_cases hp : r.perm = .write
      · simp only [hp, if_true, Option.map_none, ih]
      · simp only [if_neg hp, Option.map_some, execAccs, Acc.exec, hq m r.addr, Row.shows, List.append_nil, ih, List.map_cons, List.map_nil]

theorem mem_polled {n v : Node} (hg : GoodIds n) (hu : UniqueIds n) {p : List Nat} (hne : p ≠ []) (hv : n.sub? p = some v) :
    dots (n.ids p) ∈ polled n ↔ v.kids = [] ∧ v.d.perm.canRead = true := by
  have hp : p ∈ positions n := (mem_positions n p).2 ⟨hne, v, hv⟩
  have hl := C33_listed hg hu p hp
  rw [relPath_eq hg] at hl
  unfold polled
  rw [List.mem_filter]
  have hm : dots (n.ids p) ∈ n.getNodes := List.mem_map.2 ⟨p, hp, relPath_eq hg p⟩
  simp only [hm, true_and, hl, Option.bind_some, hv, Bool.and_eq_true, List.isEmpty_iff, getNodes_nil]

/-- The values of a turn of the monitoring thread, for any way in which the calls return what they stand for. -/
theorem poll_lookup {σ : Type} {v : Ver} {tg : Target σ} (hq : QuietReads tg) {n : Node} (hg : GoodIds n) (hu : UniqueIds n) {see : DevRes → Option ValOut} {prev : List DevCall} {m : σ}
    {rs : List DevRes} (hrs : rs.map see = (tableRun v tg n.table (prev ++ pollProg n ++ [.dispatch]) m).1.map (Option.map ValOut.data)) {r : Row} (hr : r ∈ n.table) (hne : r.path.tail ≠ []) :
    (Inner n.table r → (dict see (polled n) (rs.drop prev.length)).lookup r.dotted = none) ∧
    (¬ Inner n.table r → (dict see (polled n) (rs.drop prev.length)).lookup r.dotted = valueIn tg (tableRun v tg n.table prev m).2 r) := by
  have h1 : (rs.drop prev.length).map see =
      (polled n).map (fun s => (readOf tg n.table (tableRun v tg n.table prev m).2 s).map ValOut.data) ++ [some (.data [])] := by
    rw [List.map_drop, hrs, List.append_assoc, tableRun_append, List.map_append, List.drop_left' (by rw [List.length_map, tableRun_length]), pollProg, tableRun_reads hq]
    simp
  rw [dict_lookup r.dotted _ _ _ h1]
  obtain ⟨p, w, hw, rfl⟩ := (mem_table n r).1 hr
  have hdot : (rowOf (n.d.uid :: n.ids p) w.d).dotted = dots (n.ids p) := by simp [Row.dotted, rowOf, dots_eq]
  have hpne : p ≠ [] := by rintro rfl; simp [rowOf, ids, lineage] at hne
  have hmp := mem_polled hg hu hpne hw
  rw [inner_iff hu hw, hdot]
  constructor
  · intro hi
    rw [if_neg (fun h => hi (hmp.1 h).1)]
  · intro hi
    have hk : w.kids = [] := Classical.byContradiction hi
    have hl := C33_listed hg hu p ((mem_positions n p).2 ⟨hpne, w, hw⟩)
    rw [relPath_eq hg] at hl
    obtain ⟨path, hrow⟩ := (devNode_row hg hu (List.Perm.refl n.table) (dots (n.ids p))).1 w.d (by simp [devNode, hl, hw])
    unfold valueIn
    by_cases hp : w.d.perm = .write
    · rw [if_neg (fun h => by have := (hmp.1 h).2; rw [hp] at this; cases this)]
      simp [rowOf, hp]
    · rw [if_pos (hmp.2 ⟨hk, (canRead_iff _).2 hp⟩), readOf, hrow]
      simp [rowOf, hp]

/-- A turn of the monitoring thread and the update of a table. -/
theorem shows_core {σ : Type} {v : Ver} {tg : Target σ} (hq : QuietReads tg) {n : Node} (hg : GoodIds n) (hu : UniqueIds n) {see : DevRes → Option ValOut} {prev : List DevCall} {m : σ}
    {rs : List DevRes} (hrs : rs.map see = (tableRun v tg n.table (prev ++ pollProg n ++ [.dispatch]) m).1.map (Option.map ValOut.data))
    {r0 : Row} {value0 : Row → Option ValOut} (hv0 : ∀ r, r.perm = .write → value0 r = none) {w : Widget} {hw : List (Str × List (Str × ValOut))} {name : Str}
    (hs : Screen n.table value0 r0 w.rows) (hname : name <:+: w.name) (hother : ∀ x ∈ hw.map Prod.fst, x ≠ name → ¬ x <:+: w.name)
    (hkey : hw.lookup name = some (dict see (polled n) (rs.drop prev.length))) :
    (w.update hw).red = false ∧ (w.update hw).name = w.name ∧ Screen n.table (valueIn tg (tableRun v tg n.table prev m).2) r0 (w.update hw).rows := by
  have hmem : name ∈ hw.map Prod.fst := by
    clear hother
    induction hw with
    | nil => simp at hkey
    | cons x hw ih =>
      obtain ⟨a, b⟩ := x
      rw [List.lookup_cons] at hkey
      by_cases e : name = a
      · simp [e]
      · have : (name == a) = false := by simpa using e
        rw [this] at hkey
        exact List.mem_cons_of_mem _ (ih hkey)
  obtain ⟨u1, u2, u3⟩ := C81_update_partial hs hname hmem hother (by
    intro r hr hi
    rw [hkey]
    exact (poll_lookup hq hg hu hrs hr.1 hr.2.2).1 hi)
  refine ⟨u1, u2, ?_⟩
  rw [hkey] at u3
  simp only [Option.getD_some] at u3
  have hon : ∀ r g, Wanted n.table r0 r → OnScreen n.table (fun r => ((dict see (polled n) (rs.drop prev.length)).lookup r.dotted).or (value0 r)) r g →
      OnScreen n.table (valueIn tg (tableRun v tg n.table prev m).2) r g := by
    intro r g hr h
    refine ⟨h.id, h.addr, h.mask, h.inner, fun hi => ?_⟩
    have e := (poll_lookup hq hg hu hrs hr.1 hr.2.2).2 hi
    have := h.reg hi
    rw [e] at this
    rw [this]
    unfold valueIn
    by_cases hp : r.perm = .write
    · simp [hp, hv0 r hp]
    · simp [hp]
  refine ⟨u3.distinct, ?_, ?_⟩
  · intro r hr
    obtain ⟨g, hg1, ho⟩ := u3.all r hr
    exact ⟨g, hg1, hon r g hr ho⟩
  · intro g hg1
    obtain ⟨r, hr, ho⟩ := u3.only g hg1
    exact ⟨r, hr, hon r g hr ho⟩

section
variable {σ ρ : Type} {c : Cfg} {tg : Target σ} {mem : ρ → σ} {resp : ρ → List W → Option (List W) × ρ} {n : Node} {r0 : Row} {value0 : Row → Option ValOut} {w : Widget}
  {hw : List (Str × List (Str × ValOut))} {name : Str}

theorem pollProper {c : Cfg} {n : Node} {prev : List DevCall} (hpr : ProperProg c n.table prev)
    (hm : ∀ r ∈ n.table, r.mask ≠ 0#32 ∧ (c.wrapNeg = true ∨ r.mask ≠ 0x80000000#32)) : ProperProg c n.table (prev ++ pollProg n) := by
  intro id call hmem r hr
  rcases List.mem_append.1 hmem with h | h
  · exact hpr id call h r hr
  · obtain ⟨s, _, e⟩ := List.mem_map.1 h
    cases e
    exact hm r (List.mem_of_find?_eq_some hr)

/-- Over UDP: whatever was done with the device before, after a turn of the monitoring thread the tables of the device show the values that its registers have, in place of those before
(`value0`; nothing is ever shown for registers that cannot be read). `partial`: no name of another device occurs in the name of the table, no mask is 0. -/
theorem C81_udp_partial {N : Nat} (hg : GoodIds n) (hu : UniqueIds n) (hm : ∀ r ∈ n.table, r.mask ≠ 0#32 ∧ (c.wrapNeg = true ∨ r.mask ≠ 0x80000000#32)) (hq : QuietReads tg)
    (h0 : 0 < N) (hN : N < 2 ^ 32) (hwf : WF c) (hcap : CapOK c) (hr : c.ver = .v2 → Roomy c) (hc : Conforms c tg mem resp)
    (prev : List DevCall) (hpr : ProperProg c n.table prev) (plan : List (List Ev)) (rs : List DevRes) (s : St UdpT)
    (h : runDev c (udpT c N) n (prev ++ pollProg n ++ [.dispatch]) (St.init ⟨.init, plan, 0, []⟩) = some (rs, s)) (hdy : s.tr.u.dirty = false)
    (e0 eEnd : ρ) (hf : Follows resp e0 s.tr.u.outcomes eEnd)
    (hs : Screen n.table value0 r0 w.rows) (hv0 : ∀ r, r.perm = .write → value0 r = none) (hname : name <:+: w.name) (hother : ∀ x ∈ hw.map Prod.fst, x ≠ name → ¬ x <:+: w.name)
    (hkey : hw.lookup name = some (dict (devShow (resShow c.wrapNeg s.tr.u.heap)) (polled n) (rs.drop prev.length))) :
    (w.update hw).red = false ∧ Screen n.table (valueIn tg (mem eEnd)) r0 (w.update hw).rows := by
  have hpp := pollProper hpr hm
  obtain ⟨o1, _⟩ := tableRun_ops (tg := tg) hg hu (List.Perm.refl _) _ hpp (mem e0)
  obtain ⟨_, o2⟩ := tableRun_ops (tg := tg) hg hu (List.Perm.refl _) _ (ProperProg.append_dispatch hpp) (mem e0)
  obtain ⟨rs', r1, q2⟩ := (runDev_ops _ _).1 rs s h
  rw [devOps_dispatch] at r1
  obtain ⟨r2, r3⟩ := C16_udp h0 hN hwf hcap hr hc (devOps n (prev ++ pollProg n)) o1 plan rs' s r1 hdy e0 eEnd hf
  rw [← devOps_dispatch] at r2 r3
  have hrs : rs.map (devShow (resShow c.wrapNeg s.tr.u.heap)) = (tableRun c.ver tg n.table (prev ++ pollProg n ++ [.dispatch]) (mem e0)).1.map (Option.map ValOut.data) := by
    rw [q2, r2, weaveDev_map, o2]
  have hmm : mem eEnd = (tableRun c.ver tg n.table prev (mem e0)).2 := by
    have : mem eEnd = (tableRun c.ver tg n.table (prev ++ pollProg n ++ [.dispatch]) (mem e0)).2 := by rw [r3, o2]
    rw [this, List.append_assoc, tableRun_append, pollProg, tableRun_reads hq]
  obtain ⟨u1, _, u3⟩ := shows_core hq hg hu hrs hv0 hs hname hother hkey
  rw [hmm]
  exact ⟨u1, u3⟩

/-- Over TCP. -/
theorem C81_tcp_partial {nn N : Nat} (hg : GoodIds n) (hu : UniqueIds n) (hm : ∀ r ∈ n.table, r.mask ≠ 0#32 ∧ (c.wrapNeg = true ∨ r.mask ≠ 0x80000000#32)) (hq : QuietReads tg)
    (hpar : TPar nn N) (hwf : WF c) (hcap : CapOK c) (hr : c.ver = .v2 → Roomy c) (hc : Conforms c tg mem resp)
    (prev : List DevCall) (hpr : ProperProg c n.table prev) (plan : List (List TEv × Bool)) (rs : List DevRes) (s : St TcpT)
    (h : runDev c (tcpT c nn N) n (prev ++ pollProg n ++ [.dispatch]) (St.init (TcpT.init plan)) = some (rs, s)) (hdy : s.tr.u.dirty = false) (hst : s.tr.u.stale = false)
    (e0 eEnd : ρ) (hf : Follows resp e0 s.tr.u.outcomes eEnd)
    (hs : Screen n.table value0 r0 w.rows) (hv0 : ∀ r, r.perm = .write → value0 r = none) (hname : name <:+: w.name) (hother : ∀ x ∈ hw.map Prod.fst, x ≠ name → ¬ x <:+: w.name)
    (hkey : hw.lookup name = some (dict (devShow (resShow c.wrapNeg s.tr.u.heap)) (polled n) (rs.drop prev.length))) :
    (w.update hw).red = false ∧ Screen n.table (valueIn tg (mem eEnd)) r0 (w.update hw).rows := by
  have hpp := pollProper hpr hm
  obtain ⟨o1, _⟩ := tableRun_ops (tg := tg) hg hu (List.Perm.refl _) _ hpp (mem e0)
  obtain ⟨_, o2⟩ := tableRun_ops (tg := tg) hg hu (List.Perm.refl _) _ (ProperProg.append_dispatch hpp) (mem e0)
  obtain ⟨rs', r1, q2⟩ := (runDev_ops _ _).1 rs s h
  rw [devOps_dispatch] at r1
  obtain ⟨r2, r3⟩ := C16_tcp hpar hwf hcap hr hc (devOps n (prev ++ pollProg n)) o1 plan rs' s r1 hdy hst e0 eEnd hf
  rw [← devOps_dispatch] at r2 r3
  have hrs : rs.map (devShow (resShow c.wrapNeg s.tr.u.heap)) = (tableRun c.ver tg n.table (prev ++ pollProg n ++ [.dispatch]) (mem e0)).1.map (Option.map ValOut.data) := by
    rw [q2, r2, weaveDev_map, o2]
  have hmm : mem eEnd = (tableRun c.ver tg n.table prev (mem e0)).2 := by
    have : mem eEnd = (tableRun c.ver tg n.table (prev ++ pollProg n ++ [.dispatch]) (mem e0)).2 := by rw [r3, o2]
    rw [this, List.append_assoc, tableRun_append, pollProg, tableRun_reads hq]
  obtain ⟨u1, _, u3⟩ := shows_core hq hg hu hrs hv0 hs hname hother hkey
  rw [hmm]
  exact ⟨u1, u3⟩

/-- Over PCIe or mmap, with other clients on the same device. -/
theorem C81_paged_partial {ps : Nat → PCfg} {i pages size start : Nat} {count0 : W} {e0 : ρ} (hg : GoodIds n) (hu : UniqueIds n)
    (hm : ∀ r ∈ n.table, r.mask ≠ 0#32 ∧ (c.wrapNeg = true ∨ r.mask ≠ 0x80000000#32)) (hq : QuietReads tg)
    (hwf : WF c) (hcap : CapOK c) (hr : Roomy c) (hv : c.ver = .v2) (hc : Conforms c tg mem resp)
    (hsz : c.maxSend.toNat ≤ 4 * (size - 1)) (hrz : c.maxReply.toNat ≤ 4 * (size - 1))
    (hph : PHyp ps resp (PW.init ps pages size start count0 e0).dev)
    (prev : List DevCall) (hpr : ProperProg c n.table prev) (plan : List (List PAct)) (hplan : ∀ as ∈ plan, ∀ a ∈ as, a.tame i) (rs : List DevRes) (s : St (PagedT ρ))
    (h : runDev c (pagedT c ps resp i) n (prev ++ pollProg n ++ [.dispatch]) (St.init (PagedT.init ps pages size start count0 e0 plan)) = some (rs, s))
    (hs : Screen n.table value0 r0 w.rows) (hv0 : ∀ r, r.perm = .write → value0 r = none) (hname : name <:+: w.name) (hother : ∀ x ∈ hw.map Prod.fst, x ≠ name → ¬ x <:+: w.name)
    (hkey : hw.lookup name = some (dict (devShow (resShow c.wrapNeg (s.tr.w.cl i).heap)) (polled n) (rs.drop prev.length))) :
    (w.update hw).red = false ∧ Screen n.table (valueIn tg (mem s.tr.w.dev.env)) r0 (w.update hw).rows := by
  have hpp := pollProper hpr hm
  obtain ⟨o1, _⟩ := tableRun_ops (tg := tg) hg hu (List.Perm.refl _) _ hpp (mem e0)
  obtain ⟨_, o2⟩ := tableRun_ops (tg := tg) hg hu (List.Perm.refl _) _ (ProperProg.append_dispatch hpp) (mem e0)
  obtain ⟨rs', r1, q2⟩ := (runDev_ops _ _).1 rs s h
  rw [devOps_dispatch] at r1
  obtain ⟨r2, r3⟩ := C16_paged_device hwf hcap hr hv hc hsz hrz hph (devOps n (prev ++ pollProg n)) o1 plan hplan rs' s r1
  rw [← devOps_dispatch] at r2 r3
  have hrs : rs.map (devShow (resShow c.wrapNeg (s.tr.w.cl i).heap)) = (tableRun c.ver tg n.table (prev ++ pollProg n ++ [.dispatch]) (mem e0)).1.map (Option.map ValOut.data) := by
    rw [q2, r2, weaveDev_map, o2]
  have hmm : mem s.tr.w.dev.env = (tableRun c.ver tg n.table prev (mem e0)).2 := by
    have : mem s.tr.w.dev.env = (tableRun c.ver tg n.table (prev ++ pollProg n ++ [.dispatch]) (mem e0)).2 := by rw [r3, o2]
    rw [this, List.append_assoc, tableRun_append, pollProg, tableRun_reads hq]
  obtain ⟨u1, _, u3⟩ := shows_core hq hg hu hrs hv0 hs hname hother hkey
  rw [hmm]
  exact ⟨u1, u3⟩

end

/-! ### Non-vacuity -/

/-- Two devices with the tree top: a (b: bits 0 and 1; c), d. -/
def guiDevs : List (Str × Node) := [("fc7".toList, demoTree), ("amc".toList, demoTree)]

/-- The hypotheses of `C81_rows_partial`. -/
example : (guiDevs.map Prod.fst).Nodup ∧ (∀ d ∈ guiDevs, GoodIds d.2 ∧ UniqueIds d.2) ∧ ("fc7".toList, demoTree) ∈ guiDevs ∧
    (∃ r0 ∈ demoTree.table, r0.path.tail = [['a']] ∧ rootText ∉ "fc7".toList :: r0.path.tail ∧ ∀ x, r0.path.tail.getLast? = some x → x ∉ r0.path.tail.dropLast) := by
  refine ⟨by decide, ?_, by simp [guiDevs], ?_⟩
  · intro d hd
    simp only [guiDevs, List.mem_cons, List.not_mem_nil, or_false] at hd
    rcases hd with rfl | rfl <;> exact demoTree_ok
  · have hs : demoTree.sub? [0] = demoTree.kids[0]? := by rw [sub?_cons]; cases demoTree.kids[0]? <;> rfl
    refine ⟨_, (mem_table demoTree _).2 ⟨[0], _, hs.trans rfl, rfl⟩, by decide, by decide, by decide⟩

/-- The table of the node a, before and after a turn over UDP in which the registers hold 0x95, 0x96 and 0x97. -/
def guiTable : Option Widget := (hwTree id guiDevs).bind fun hw => addWidget hw 0 (completeId ["a".toList, "fc7".toList, rootText])

example : guiTable = some ⟨"fc7_0".toList, [⟨"a".toList, 1, 0xFFFFFFFF, .na⟩, ⟨"a.b".toList, 1, 3, .zero⟩, ⟨"a.c".toList, 2, 0xFFFFFFFF, .zero⟩], false⟩ := by decide +kernel

/-- Names that are not in the tree are passed over (the user cannot choose them): a search for fc7, zz, a finds a. -/
example : ((hwTree id guiDevs).bind fun hw => addWidget hw 0 ["fc7".toList, "zz".toList, "a".toList]).map (fun w => w.rows.length) = guiTable.map fun w => w.rows.length := by decide +kernel

def guiPoll : Option (List DevRes × St UdpT) := runDev smallCfg (udpT smallCfg 16) demoTree ([] ++ pollProg demoTree ++ [.dispatch])
  (St.init ⟨.init, [[], [.sendDone true, .recvBegin (some [0x200000F0, 0x20000100, 0x95, 0x20010100, 0x96, 0x20020100, 0x97]), .recvEnd]], 0, []⟩)

example : guiPoll.map (fun p => (p.2.tr.u.dirty, p.2.tr.u.outcomes.map fun x => (x.1.send, x.2))) = some (false,
    [([0x200000F0, 0x2000010F, 1, 0x2001010F, 2, 0x2002010F, 4], some [0x200000F0, 0x20000100, 0x95, 0x20010100, 0x96, 0x20020100, 0x97])]) := by decide +kernel

def guiInfo : List (Str × List (Str × ValOut)) :=
  match guiPoll with
  | some p => [("amc".toList, [("a.b".toList, .data [0])]), ("fc7".toList, dict (devShow (resShow smallCfg.wrapNeg p.2.tr.u.heap)) (polled demoTree) (p.1.drop 0))]
  | none => []

example : guiTable.map (fun w => (w.update guiInfo).rows) = some [⟨"a".toList, 1, 0xFFFFFFFF, .na⟩, ⟨"a.b".toList, 1, 3, .val (.data [1])⟩, ⟨"a.c".toList, 2, 0xFFFFFFFF, .val (.data [0x96])⟩] := by
  decide +kernel

example : (∀ x ∈ guiInfo.map Prod.fst, x ≠ "fc7".toList → ¬ x <:+: "fc7_0".toList) ∧ "fc7".toList <:+: "fc7_0".toList ∧ "fc7".toList ∈ guiInfo.map Prod.fst := by
  have e : guiInfo.map Prod.fst = ["amc".toList, "fc7".toList] := by decide +kernel
  rw [e]
  refine ⟨?_, ⟨[], "_0".toList, rfl⟩, by simp⟩
  intro x hx hne h
  simp only [List.mem_cons, List.not_mem_nil, or_false] at hx
  rcases hx with rfl | rfl
  · exact absurd ((isIn_iff _ _).2 h) (by decide)
  · exact hne rfl

example : (∀ r ∈ demoTree.table, r.mask ≠ 0#32) ∧ QuietReads (dummyTarget fun _ => 0) := ⟨by decide +kernel, fun _ _ => rfl⟩

/-! ### Where the code goes wrong -/

/-- The values of a device are found by searching for names of devices in the name of the table: if the name of one device occurs in that of another, and comes first in the dictionary, the
tables of the second show the registers of the first. -/
theorem C81_violated_device : ∃ (w : Widget) (hw : List (Str × List (Str × ValOut))), (hw.map Prod.fst).Nodup ∧ w.name = "dummy2_0".toList ∧
    hw.lookup "dummy2".toList = some [("reg".toList, .data [2])] ∧ hw.lookup "dummy".toList = some [("reg".toList, .data [1])] ∧
    (w.update hw).rows = [⟨"reg".toList, 1#32, 0xFFFFFFFF#32, .val (.data [1])⟩] ∧ (w.update hw).red = false :=
  ⟨⟨"dummy2_0".toList, [⟨"reg".toList, 1#32, 0xFFFFFFFF#32, .zero⟩], false⟩,
    [("dummy".toList, [("reg".toList, .data [1])]), ("dummy2".toList, [("reg".toList, .data [2])])], by decide⟩

/-- A device that does not answer is not marked if its name contains that of one which does. -/
theorem C81_violated_red : ∃ (w : Widget) (hw : List (Str × List (Str × ValOut))), w.name = "dummy2_0".toList ∧ "dummy2".toList ∉ hw.map Prod.fst ∧ (w.update hw).red = false :=
  ⟨⟨"dummy2_0".toList, [], true⟩, [("dummy".toList, [])], by decide⟩

/-- Ids are not empty, have no dot and differ on each level. -/
def wellFormedIds (n : Node) : Bool := (n.table.all fun r => decide (∀ s ∈ r.path.tail, s ≠ [] ∧ '.' ∉ s)) && decide (n.table.map Row.path).Nodup

/-- A tree in which the id `a` occurs twice on a path: a, a.b, a.b.a. -/
def twiceTree : Node := mk { uid := "top".toList } [mk { uid := ['a'] } [mk { uid := ['b'] } [mk { uid := ['a'], addr := 5#32 } []]]]

/-- The last id of the path is removed where it first occurs: the register a.b.a gets the row `b.a.a`, a name that no node has, so that its value is never shown. -/
theorem C81_violated_path : wellFormedIds twiceTree = true ∧ "a.b.a".toList ∈ polled twiceTree ∧
    ((hwTree id [("dev".toList, twiceTree)]).bind fun hw => (addWidget hw 0 ["dev".toList, ['a'], ['b'], ['a']]).map Widget.rows) =
      some [⟨"b.a.a".toList, 5#32, 0xFFFFFFFF#32, .zero⟩] ∧ twiceTree.getNode "b.a.a".toList = none := by decide +kernel

/-- The title of a table is cut at the first underscore of the device's name: the tables of two devices have the same title. -/
theorem C81_violated_title : ∃ v w : Widget, v.name = "crate_a_0".toList ∧ w.name = "crate_b_1".toList ∧ v.title = w.title :=
  ⟨⟨"crate_a_0".toList, [], false⟩, ⟨"crate_b_1".toList, [], false⟩, by decide⟩

/-- A tree with a node whose id is the text of the root of the window. -/
def rootTree : Node := mk { uid := "top".toList } [mk { uid := rootText, addr := 3#32 } [mk { uid := ['r'], addr := 4#32 } []]]

/-- A node called `uTCA HW` ends the search for the device: nothing can be shown of what is below. -/
theorem C81_violated_root : wellFormedIds rootTree = true ∧
    ((hwTree id [("dev".toList, rootTree)]).bind fun hw => addWidget hw 0 (completeId [['r'], rootText, "dev".toList, rootText])) = none := by decide +kernel

end Verif
