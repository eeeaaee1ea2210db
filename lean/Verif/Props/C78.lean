import Verif.Model.Overlap
import Verif.Props.C36
import Verif.Props.C38
import Verif.Props.C65
import Verif.Props.C58
/-!
# C78: the file with the report of address overlaps
-/

set_option autoImplicit false

namespace Verif
open Node

namespace Spec

/-- Eight hexadecimal digits with this value. -/
def Hex8 (s : Str) (v : Nat) : Prop := s.length = 8 ∧ Numeral hexTable 16 s v

/-- How a line describes where a node is: the first and the last of its addresses; or its address; or its address and mask, if the two nodes can be masked apart. -/
inductive Place (d other : NodeData) : Str → Prop
  | block {s e : Str} {a b : Nat} : d.mode = .incremental → Hex8 s a → Hex8 e b → (∀ x, Uses d x ↔ a ≤ x ∧ x ≤ b) →
      Place d other ("addresses 0x".toList ++ s ++ " - 0x".toList ++ e)
  | address {s : Str} {a : Nat} : d.mode ≠ .incremental → other.mode = .incremental → Hex8 s a → (∀ x, Uses d x ↔ x = a) →
      Place d other ("address 0x".toList ++ s)
  | field {s m : Str} {a : Nat} : d.mode ≠ .incremental → other.mode ≠ .incremental → Hex8 s a → (∀ x, Uses d x ↔ x = a) → Hex8 m d.mask.toNat →
      Place d other ("address 0x".toList ++ s ++ ", mask 0x".toList ++ m)

/-- A line about the nodes `x`, with path `p`, and `y`, with path `q`. -/
def OverlapLine (p q : Str) (x y : NodeData) (t : Str) : Prop :=
  ∃ u v, Place x y u ∧ Place y x v ∧
    t = "Node '".toList ++ p ++ "' [".toList ++ u ++ "] overlaps with '".toList ++ q ++ "' [".toList ++ v ++ "].".toList

/-- The text of a file with these lines. -/
def unlines (l : List Str) : Str := l.flatMap (· ++ ['\n'])

/-- No id in the tree contains the character. -/
def IdsWithout (c : Char) (n : Node) : Prop := ∀ p v, n.sub? p = some v → c ∉ v.d.uid

end Spec
open Spec Overlap

/-! ### Numbers -/

theorem digits_get {d : Nat} (h : d < 16) : ((digits[d]?).getD '?', d) ∈ hexTable := by
  have : ∀ d, d < 16 → ((digits[d]?).getD '?', d) ∈ hexTable := by decide +kernel
  exact this d h

theorem hexNum_numeral (k : Nat) : ∀ v, v < 16 ^ k → 0 < k → Numeral hexTable 16 (hexNum k v) v ∧ 0 < (hexNum k v).length ∧ (hexNum k v).length ≤ k := by
  induction k with
  | zero => intro v _ h; omega
  | succ k ih =>
    intro v hv _
    rw [hexNum]
    by_cases h : v < 16
    · rw [if_pos h]
      have := digits_get h
      rw [Nat.mod_eq_of_lt h]
      exact ⟨.one this, by simp, by simp⟩
    · rw [if_neg h]
      have hk : 0 < k := by
        rcases Nat.eq_zero_or_pos k with e | e
        · subst e; simp at hv; omega
        · exact e
      have hv' : v / 16 < 16 ^ k := by
        rw [Nat.div_lt_iff_lt_mul (by omega)]; rw [Nat.pow_succ] at hv; exact hv
      obtain ⟨h1, h2, h3⟩ := ih _ hv' hk
      refine ⟨?_, by simp, by simp; exact h3⟩
      have := Numeral.snoc h1 (digits_get (Nat.mod_lt v (by omega : 0 < 16)))
      have e : 16 * (v / 16) + v % 16 = v := Nat.div_add_mod v 16
      rw [e] at this; exact this

theorem numeral_zeros (k : Nat) {s : Str} {v : Nat} (h : Numeral hexTable 16 s v) : Numeral hexTable 16 (List.replicate k '0' ++ s) v := by
  induction h with
  | one hm =>
    rename_i ch d
    induction k with
    | zero => exact .one hm
    | succ k ih =>
      have h0 : Numeral hexTable 16 (List.replicate (k + 1) '0') 0 := by
        have := Fmt.numeral_pad (tbl := hexTable) (b := 16) (ch := fun d => (digits[d]?).getD '?') (l := [0]) k (by
          intro d hd; rw [List.mem_singleton] at hd; subst hd; exact digits_get (by omega)) (by decide) (by decide +kernel) (by simp)
        have e : Fmt.valOf 16 [0] = 0 := by decide
        rw [e] at this
        have e2 : List.replicate (k + 1) '0' = List.replicate k '0' ++ [0].map fun d => (digits[d]?).getD '?' := by
          rw [List.replicate_succ']; rfl
        rw [e2]; exact this
      have := Numeral.snoc h0 hm
      simpa using this
  | snoc h hm ih =>
    rw [← List.append_assoc]; exact .snoc ih hm

theorem hex8_ok (v : W) : Hex8 (hex8 v) v.toNat := by
  have hv := v.isLt
  obtain ⟨h1, h2, h3⟩ := hexNum_numeral 8 v.toNat (by simpa using hv) (by omega)
  refine ⟨?_, ?_⟩
  · unfold hex8; simp only [List.length_append, List.length_replicate]; omega
  · unfold hex8; exact numeral_zeros _ h1

theorem hex8_unique {s : Str} {a b : Nat} (h : Hex8 s a) (h' : Hex8 s b) : a = b := by
  have h1 := ((numeral_iff (hexOk (p := 1) (by omega)) 16 s a).1 h.2).2.2
  have h2 := ((numeral_iff (hexOk (p := 1) (by omega)) 16 s b).1 h'.2).2.2
  rw [h1, h2]

/-! ### Lines -/

theorem uses_block {d : NodeData} (h : d.RangeOK) (hm : d.mode = .incremental) :
    ∀ x, Uses d x ↔ d.addr.toNat ≤ x ∧ x ≤ (d.addr + d.size - 1#32).toNat := by
  intro x
  have e := maxAddr_toNat h
  rw [if_pos hm] at e
  unfold NodeData.maxAddr at e
  rw [if_pos hm] at e
  rw [e]
  have := h hm
  unfold Uses
  rw [hm]
  simp only
  omega

theorem uses_one {d : NodeData} (hm : d.mode ≠ .incremental) (hh : d.mode ≠ .hierarchical) : ∀ x, Uses d x ↔ x = d.addr.toNat := by
  intro x
  unfold Uses
  cases h : d.mode <;> simp_all

theorem place_ok {d o : NodeData} (h : d.RangeOK) (hh : d.mode ≠ .hierarchical) : Place d o (place d o) := by
  unfold place
  by_cases hm : d.mode = .incremental
  · rw [if_pos hm]
    exact .block hm (hex8_ok _) (hex8_ok _) (uses_block h hm)
  · rw [if_neg hm]
    by_cases ho : o.mode = .incremental
    · rw [if_pos ho]; exact .address hm ho (hex8_ok _) (uses_one hm hh)
    · rw [if_neg ho]; exact .field hm ho (hex8_ok _) (uses_one hm hh) (hex8_ok _)

/-- **C78**: a line names the two nodes and says where they are. -/
theorem C78_line (n : Node) (x y : List Nat × NodeData) (hx : x.2.RangeOK) (hy : y.2.RangeOK) (hx' : x.2.mode ≠ .hierarchical) (hy' : y.2.mode ≠ .hierarchical) :
    OverlapLine (n.fullPath x.1) (n.fullPath y.1) x.2 y.2 (describe n x y) :=
  ⟨_, _, place_ok hx hx', place_ok hy hy', rfl⟩

theorem cut_at {c : Char} {p p' r r' : Str} (hp : c ∉ p) (hp' : c ∉ p') (h : p ++ c :: r = p' ++ c :: r') : p = p' ∧ r = r' := by
  induction p generalizing p' with
  | nil =>
    cases p' with
    | nil => simpa using h
    | cons x p' => simp at h; exact absurd h.1 (fun e => hp' (by simp [e]))
  | cons x p ih =>
    cases p' with
    | nil => simp at h; exact absurd h.1.symm (fun e => hp (by simp [e]))
    | cons y p' =>
      simp only [List.cons_append, List.cons.injEq] at h
      obtain ⟨h1, h2⟩ := ih (fun e => hp (by simp [e])) (fun e => hp' (by simp [e])) h.2
      exact ⟨by rw [h.1, h1], h2⟩

theorem hex8_chars {s : Str} {a : Nat} (h : Hex8 s a) {c : Char} (hc : c ∉ hexTable.map (·.1)) : c ∉ s := by
  intro hm
  have h1 := ((numeral_iff (hexOk (p := 1) (by omega)) 16 s a).1 h.2).2.1 c hm
  have e : digitChars 1 = hexTable.map (·.1) := by simp [digitChars, hexTable, decTable]
  rw [e] at h1; exact hc h1

theorem place_chars {d o : NodeData} {u : Str} (h : Place d o u) {c : Char} (hc : c ∉ hexTable.map (·.1))
    (hc' : c ∉ "addresses 0x".toList ++ " - 0x".toList ++ "address 0x".toList ++ ", mask 0x".toList) : c ∉ u := by
  simp only [List.mem_append, not_or] at hc'
  cases h with
  | block _ h1 h2 _ =>
    simp only [List.mem_append, not_or]
    exact ⟨⟨⟨hc'.1.1.1, hex8_chars h1 hc⟩, hc'.1.1.2⟩, hex8_chars h2 hc⟩
  | address _ _ h1 _ =>
    simp only [List.mem_append, not_or]
    exact ⟨hc'.1.2, hex8_chars h1 hc⟩
  | field _ _ h1 _ h2 =>
    simp only [List.mem_append, not_or]
    exact ⟨⟨⟨hc'.1.2, hex8_chars h1 hc⟩, hc'.2⟩, hex8_chars h2 hc⟩

theorem app2 {a b c a' c' : Str} (ha : a.length = a'.length) (h : a ++ b ++ c = a' ++ b ++ c') : a = a' ∧ c = c' := by
  obtain ⟨h1, h2⟩ := List.append_inj h (by simp [ha])
  exact ⟨List.append_cancel_right h1, h2⟩

theorem place_read {d o d' o' : NodeData} {u : Str} (h : Place d o u) (h' : Place d' o' u) :
    (d.mode = .incremental ↔ d'.mode = .incremental) ∧ (∀ a, Uses d a ↔ Uses d' a) ∧
    (d.mode ≠ .incremental → o.mode ≠ .incremental → d.mask = d'.mask ∧ o'.mode ≠ .incremental) := by
  generalize hu : u = w at h'
  cases h with
  | block hm h1 h2 h3 =>
    rename_i s e a b
    cases h' with
    | block hm' h1' h2' h3' =>
      rename_i s' e' a' b'
      simp only [List.append_assoc] at hu
      have hu := List.append_cancel_left hu
      rw [← List.append_assoc, ← List.append_assoc] at hu
      obtain ⟨e1, e2⟩ := app2 (by rw [h1.1, h1'.1]) hu
      subst e1 e2
      rw [hex8_unique h1 h1', hex8_unique h2 h2'] at h3
      exact ⟨by simp [hm, hm'], fun x => (h3 x).trans (h3' x).symm, fun h => absurd hm h⟩
    | address => simp at hu
    | field => simp at hu
  | address hm ho h1 h3 =>
    cases h' with
    | block => simp at hu
    | address hm' ho' h1' h3' =>
      have e := List.append_cancel_left hu
      subst e
      rw [hex8_unique h1 h1'] at h3
      exact ⟨by simp [hm, hm'], fun x => (h3 x).trans (h3' x).symm, fun _ h => absurd ho h⟩
    | field hm' ho' h1' _ h2' =>
      have := congrArg List.length hu
      simp [h1.1, h1'.1, h2'.1] at this
  | field hm ho h1 h3 h2 =>
    cases h' with
    | block => simp at hu
    | address hm' ho' h1' h3' =>
      have := congrArg List.length hu
      simp [h1.1, h1'.1, h2.1] at this
    | field hm' ho' h1' h3' h2' =>
      simp only [List.append_assoc] at hu
      have hu := List.append_cancel_left hu
      rw [← List.append_assoc, ← List.append_assoc] at hu
      obtain ⟨e1, e2⟩ := app2 (by rw [h1.1, h1'.1]) hu
      subst e1 e2
      rw [hex8_unique h1 h1'] at h3
      exact ⟨by simp [hm, hm'], fun x => (h3 x).trans (h3' x).symm, fun _ _ => ⟨BitVec.eq_of_toNat_eq (hex8_unique h2 h2'), ho'⟩⟩

theorem line_eq (p u q v : Str) : "Node '".toList ++ p ++ "' [".toList ++ u ++ "] overlaps with '".toList ++ q ++ "' [".toList ++ v ++ "].".toList =
    "Node '".toList ++ (p ++ '\'' :: (" [".toList ++ (u ++ ']' :: (" overlaps with '".toList ++ (q ++ '\'' :: (" [".toList ++ (v ++ "].".toList))))))) := by
  simp

/-- **C78**: a line is about one pair of nodes only: it tells the paths (without quotes in them), the addresses, and the masks, if these matter. -/
theorem C78_read {p q p' q' t : Str} {x y x' y' : NodeData} (h : OverlapLine p q x y t) (h' : OverlapLine p' q' x' y' t)
    (hp : '\'' ∉ p) (hq : '\'' ∉ q) (hp' : '\'' ∉ p') (hq' : '\'' ∉ q') :
    p = p' ∧ q = q' ∧ (∀ a, Uses x a ↔ Uses x' a) ∧ (∀ a, Uses y a ↔ Uses y' a) ∧
    (x.mode ≠ .incremental → y.mode ≠ .incremental → x.mask = x'.mask ∧ y.mask = y'.mask) := by
  obtain ⟨u, v, hu, hv, e⟩ := h
  obtain ⟨u', v', hu', hv', e'⟩ := h'
  rw [e, line_eq, line_eq] at e'
  have e1 := List.append_cancel_left e'
  obtain ⟨ep, e2⟩ := cut_at hp hp' e1
  have e3 := List.append_cancel_left e2
  have b1 : ']' ∉ hexTable.map (·.1) := by decide +kernel
  have b2 : ']' ∉ "addresses 0x".toList ++ " - 0x".toList ++ "address 0x".toList ++ ", mask 0x".toList := by decide +kernel
  obtain ⟨eu, e4⟩ := cut_at (place_chars hu b1 b2) (place_chars hu' b1 b2) e3
  have e5 := List.append_cancel_left e4
  obtain ⟨eq, e6⟩ := cut_at hq hq' e5
  have e7 := List.append_cancel_left e6
  have ev : v = v' := List.append_cancel_right e7
  subst eu ev
  have r1 := place_read hu hu'
  have r2 := place_read hv hv'
  exact ⟨ep, eq, r1.2.1, r2.2.1, fun a b => ⟨(r1.2.2 a b).1, (r2.2.2 b a).1⟩⟩

theorem not_mem_fullPath {n v : Node} {c : Char} (hc : c ≠ '.') (hn : IdsWithout c n) : ∀ (pos : List Nat), n.sub? pos = some v → c ∉ n.fullPath pos := by
  intro pos hv
  have key : ∀ (l : List Node), (∀ k ∈ l, c ∉ k.d.uid) → c ∉ joinIds l := by
    intro l hl hm
    unfold joinIds at hm
    have hm := List.dropLast_subset _ hm
    obtain ⟨k, hk, hk'⟩ := List.mem_flatMap.1 hm
    split at hk'
    · rcases List.mem_append.1 hk' with h | h
      · exact hl k hk h
      · exact hc (by simpa using h)
    · simp at hk'
  apply key
  intro k hk
  rcases List.mem_cons.1 hk with rfl | hk
  · exact hn [] _ (sub?_nil _)
  · have : ∀ (pos : List Nat) (n : Node), (∀ p v, n.sub? p = some v → c ∉ v.d.uid) → ∀ k ∈ n.lineage pos, c ∉ k.d.uid := by
      intro pos
      induction pos with
      | nil => intro n _ k hk; simp [lineage] at hk
      | cons i is ih =>
        intro n hn k hk
        rw [lineage] at hk
        cases hki : n.kids[i]? with
        | none => rw [hki] at hk; simp at hk
        | some m =>
          rw [hki] at hk
          have hsub : ∀ p, n.sub? (i :: p) = m.sub? p := by
            intro p; rw [sub?_cons, hki]; rfl
          rcases List.mem_cons.1 hk with rfl | hk
          · exact hn [i] _ (by rw [hsub]; exact sub?_nil _)
          · exact ih m (fun p v hv => hn (i :: p) v (by rw [hsub]; exact hv)) k hk
    exact this pos n hn k hk

theorem fullPath_inj {n v w : Node} (hg : GoodIds n) (hu : UniqueIds n) {p q : List Nat} (hp : p ≠ []) (hq : q ≠ []) (hv : n.sub? p = some v) (hw : n.sub? q = some w)
    (h : n.fullPath p = n.fullPath q) : p = q := by
  have e : ∀ p v, p ≠ [] → n.sub? p = some v → n.fullPath p = (if n.d.uid = [] then [] else n.d.uid ++ ['.']) ++ n.relPath p := by
    intro p v hp hv
    unfold fullPath relPath
    by_cases hn : n.d.uid = []
    · rw [if_pos hn]; unfold joinIds; simp [hn]
    · rw [if_neg hn]
      have hne := lineage_ne hp hv
      have hex : ∃ k ∈ n.lineage p, k.d.uid ≠ [] := by
        cases hl : n.lineage p with
        | nil => exact absurd hl hne
        | cons k l => exact ⟨k, by simp, (lineage_good hg p k (by rw [hl]; simp)).1⟩
      have := joinIds_append [n] (n.lineage p) ⟨n, by simp, hn⟩ hex
      have e1 : joinIds [n] = n.d.uid := by unfold joinIds; simp [hn]
      rw [List.singleton_append, e1] at this
      rw [this]; simp
  rw [e p v hp hv, e q w hq hw] at h
  have h := List.append_cancel_left h
  have h1 := (C33_lookup hg hu (n.relPath p) p).2 ⟨⟨v, hv⟩, rfl⟩
  have h2 := (C33_lookup hg hu (n.relPath p) q).2 ⟨⟨w, hw⟩, h.symm⟩
  rw [h1] at h2; exact Option.some.inj h2

theorem mem_scan_of {l : List (List Nat × NodeData)} {x y : List Nat × NodeData} (h : (x, y) ∈ overlapScan l) : x ∈ l ∧ y ∈ l := by
  induction l with
  | nil => simp [overlapScan] at h
  | cons a l ih =>
    rw [overlapScan, List.mem_append] at h
    rcases h with h | h
    · split at h
      · simp at h
      · obtain ⟨b, hb, e⟩ := List.mem_map.1 h
        cases e
        have := (List.mem_filter.1 hb).1
        exact ⟨by simp, List.mem_cons_of_mem _ (List.takeWhile_subset _ this)⟩
    · exact ⟨List.mem_cons_of_mem _ (ih h).1, List.mem_cons_of_mem _ (ih h).2⟩

theorem overlapScan_nodup {l : List (List Nat × NodeData)} (h : l.Nodup) : (overlapScan l).Nodup := by
  induction l with
  | nil => simp [overlapScan]
  | cons a l ih =>
    rw [List.nodup_cons] at h
    rw [overlapScan, List.nodup_append]
    refine ⟨?_, ih h.2, ?_⟩
    · split
      · simp
      · have : ((l.takeWhile fun n2 => decide (n2.2.addr.toNat ≤ a.2.maxAddr.toNat)).filter (overlapPair a)).Nodup :=
          List.Pairwise.filter _ (h.2.sublist (List.takeWhile_sublist _))
        unfold List.Nodup
        rw [List.pairwise_map]
        exact List.Pairwise.imp (fun {b c} hb e => hb (by cases e; rfl)) this
    · intro x hx y hy e
      subst e
      obtain ⟨x1, x2⟩ := x
      have h1 := (mem_scan_of hy).1
      split at hx
      · simp at hx
      · obtain ⟨b, _, e⟩ := List.mem_map.1 hx
        cases e
        exact h.1 h1

theorem overlaps_nodup (n : Node) : n.overlaps.Nodup := by
  apply overlapScan_nodup
  have hperm : (stableSort (fun e : List Nat × NodeData => e.2.addr.toNat) n.entries).Perm n.entries := stableSort_perm _ _
  have hnd := (hperm.map Prod.fst).nodup_iff.2 (entries_nodup n)
  unfold List.Nodup at hnd ⊢
  rw [List.pairwise_map] at hnd
  exact hnd.imp (fun {a b} h (e : a = b) => h (by rw [e]))

theorem clash_mode {p q : List Nat} {x y : NodeData} (h : Clash p q x y) : x.mode ≠ .hierarchical ∧ y.mode ≠ .hierarchical := by
  obtain ⟨⟨a, h1, h2⟩, _⟩ := h
  constructor
  · intro e; unfold Uses at h1; rw [e] at h1; exact h1
  · intro e; unfold Uses at h2; rw [e] at h2; exact h2

/-- The directory of the reports is there already, with any permissions, or can be made. -/
def Overlap.DirReady (fs : Fs) : Prop :=
  fs.isDirectory (dirName fs.user) = some true ∨
    fs.isDirectory (dirName fs.user) = some false ∧ fs.createDirectories (dirName fs.user) = some true ∧ fs.chmod (dirName fs.user) = true

theorem haveDir_iff (fs : Fs) : haveDir fs = true ↔ Overlap.DirReady fs := by
  unfold haveDir Overlap.DirReady
  cases fs.isDirectory (dirName fs.user) with
  | none => simp
  | some b =>
    cases b with
    | true => simp
    | false =>
      cases fs.createDirectories (dirName fs.user) with
      | none => simp
      | some b => cases b <;> simp

/-- The file can be written. -/
def Overlap.Writable (fs : Fs) (path : Str) : Prop :=
  Overlap.DirReady fs ∧ fs.opens (reportPath fs.user path) = true ∧
    (fs.isRegularFile (reportPath fs.user path) = some true ∨ fs.isRegularFile (reportPath fs.user path) = some false ∧ fs.chmod (reportPath fs.user path) = true)

/-- **C78**: if any two nodes of the tree overlap and the file can be written, then its lines are: a header with the name of the address file, the time, an empty line, and
for every two nodes that overlap one line about them. (The tree's blocks are not empty and do not reach beyond the address space, as in C36.) -/
theorem C78_report_partial (fs : Fs) (n : Node) (path : Str) (hr : ∀ p v, n.sub? p = some v → v.d.RangeOK) (hw : Writable fs path)
    (hid : IdsWithout '\n' n) (hpath : '\n' ∉ path) (hclock : '\n' ∉ fs.clock)
    (hne : ∃ p q v w, p ≠ [] ∧ q ≠ [] ∧ p ≠ q ∧ n.sub? p = some v ∧ n.sub? q = some w ∧ Clash p q v.d w.d) :
    ∃ ls : List Str,
      let all := ("Overlap report for \"".toList ++ path ++ "\".".toList) :: ("Written at ".toList ++ fs.clock ++ ['.']) :: [] :: ls
      check fs n path = .written (reportPath fs.user path) (unlines all) ∧
      (∀ l ∈ all, '\n' ∉ l) ∧
      (∀ t ∈ ls, ∃ p q v w, p ≠ [] ∧ q ≠ [] ∧ p ≠ q ∧ n.sub? p = some v ∧ n.sub? q = some w ∧ Clash p q v.d w.d ∧
        OverlapLine (n.fullPath p) (n.fullPath q) v.d w.d t) ∧
      (∀ p q v w, p ≠ [] → q ≠ [] → p ≠ q → n.sub? p = some v → n.sub? q = some w → Clash p q v.d w.d →
        ∃ t ∈ ls, OverlapLine (n.fullPath p) (n.fullPath q) v.d w.d t ∨ OverlapLine (n.fullPath q) (n.fullPath p) w.d v.d t) ∧
      (GoodIds n → UniqueIds n → IdsWithout '\'' n → ls.Pairwise fun t t' => ∀ p q v w, p ≠ [] → q ≠ [] → n.sub? p = some v → n.sub? q = some w →
        OverlapLine (n.fullPath p) (n.fullPath q) v.d w.d t →
          ¬ OverlapLine (n.fullPath p) (n.fullPath q) v.d w.d t' ∧ ¬ OverlapLine (n.fullPath q) (n.fullPath p) w.d v.d t') := by
  obtain ⟨hs, hc⟩ := C36_report_partial n hr
  have hov : n.overlaps ≠ [] := by
    obtain ⟨p, q, v, w, h1, h2, h3, h4, h5, h6⟩ := hne
    intro e
    rcases hc p q v w h1 h2 h3 h4 h5 h6 with h | h <;> rw [e] at h <;> simp at h
  have hfacts : ∀ x y, (x, y) ∈ n.overlaps → ∃ v w, x.1 ≠ [] ∧ y.1 ≠ [] ∧ x.1 ≠ y.1 ∧ n.sub? x.1 = some v ∧ n.sub? y.1 = some w ∧ v.d = x.2 ∧ w.d = y.2 ∧
      Clash x.1 y.1 v.d w.d ∧ OverlapLine (n.fullPath x.1) (n.fullPath y.1) v.d w.d (describe n x y) := by
    intro x y h
    obtain ⟨h1, h2, h3, _, h5, _⟩ := hs x y h
    obtain ⟨a1, v, a2, a3⟩ := (mem_entries n x).1 h1
    obtain ⟨b1, w, b2, b3⟩ := (mem_entries n y).1 h2
    refine ⟨v, w, a1, b1, h3, a2, b2, a3, b3, by rw [a3, b3]; exact h5, ?_⟩
    have hm := clash_mode h5
    rw [a3, b3]
    exact C78_line n x y (a3 ▸ hr _ v a2) (b3 ▸ hr _ w b2) hm.1 hm.2
  have hnl1 : '\n' ∉ hexTable.map (·.1) := by decide +kernel
  have hnl2 : '\n' ∉ "addresses 0x".toList ++ " - 0x".toList ++ "address 0x".toList ++ ", mask 0x".toList := by decide +kernel
  refine ⟨n.overlaps.map fun p => describe n p.1 p.2, ?_, ?_, ?_, ?_, ?_⟩
  · have hcont : contents n n.overlaps (headerText path) fs.clock =
        unlines (("Overlap report for \"".toList ++ path ++ "\".".toList) :: ("Written at ".toList ++ fs.clock ++ ['.']) :: [] ::
          n.overlaps.map fun p => describe n p.1 p.2) := by
      unfold contents body unlines headerText
      simp [List.flatMap_map, List.append_assoc]
    unfold check
    simp only
    rw [if_neg hov, if_pos ((haveDir_iff fs).2 hw.1), write, ← hcont]
    rcases hw.2.2 with e | ⟨e, e'⟩
    · rw [e]; simp [hw.2.1]
    · rw [e]; simp [hw.2.1, e']
  · intro l hl
    simp only [List.mem_cons, List.mem_map] at hl
    rcases hl with rfl | rfl | rfl | ⟨⟨x, y⟩, hxy, rfl⟩
    · simp only [List.mem_append, not_or]; exact ⟨⟨by decide, hpath⟩, by decide⟩
    · simp only [List.mem_append, not_or]; exact ⟨⟨by decide, hclock⟩, by decide⟩
    · simp
    · obtain ⟨v, w, _, _, _, a, b, _, _, _, ⟨u, z, hu, hz, e⟩⟩ := hfacts x y hxy
      simp only
      rw [e]
      simp only [List.mem_append, not_or]
      exact ⟨⟨⟨⟨⟨⟨⟨⟨by decide, not_mem_fullPath (by decide) hid _ a⟩, by decide⟩, place_chars hu hnl1 hnl2⟩, by decide⟩, not_mem_fullPath (by decide) hid _ b⟩, by decide⟩,
        place_chars hz hnl1 hnl2⟩, by decide⟩
  · intro t ht
    obtain ⟨⟨x, y⟩, hxy, rfl⟩ := List.mem_map.1 ht
    obtain ⟨v, w, h1, h2, h3, h4, h5, _, _, h8, h9⟩ := hfacts x y hxy
    exact ⟨x.1, y.1, v, w, h1, h2, h3, h4, h5, h8, h9⟩
  · intro p q v w h1 h2 h3 h4 h5 h6
    rcases hc p q v w h1 h2 h3 h4 h5 h6 with h | h
    · obtain ⟨v', w', _, _, _, a, b, c, d, _, e⟩ := hfacts _ _ h
      simp only at a b c d e
      rw [c, d] at e
      exact ⟨_, List.mem_map.2 ⟨_, h, rfl⟩, .inl e⟩
    · obtain ⟨v', w', _, _, _, a, b, c, d, _, e⟩ := hfacts _ _ h
      simp only at a b c d e
      rw [c, d] at e
      exact ⟨_, List.mem_map.2 ⟨_, h, rfl⟩, .inr e⟩
  · intro hg hu hq
    rw [List.pairwise_map]
    have hnd := overlaps_nodup n
    refine List.Pairwise.imp_of_mem ?_ hnd
    rintro ⟨x, y⟩ ⟨x', y'⟩ hm hm' hne p q v w hp hq' hv hw' hl
    obtain ⟨a, b, h1, h2, _, h4, h5, h6, h7, _, h9⟩ := hfacts x y hm
    obtain ⟨a', b', h1', h2', _, h4', h5', h6', h7', _, h9'⟩ := hfacts x' y' hm'
    have nq : ∀ {p : List Nat} {v : Node}, n.sub? p = some v → '\'' ∉ n.fullPath p := fun h => not_mem_fullPath (by decide) hq _ h
    obtain ⟨r1, r2, _⟩ := C78_read hl h9 (nq hv) (nq hw') (nq h4) (nq h5)
    have e1 := fullPath_inj hg hu hp h1 hv h4 r1
    have e2 := fullPath_inj hg hu hq' h2 hw' h5 r2
    have ext : ∀ {x y : List Nat × NodeData} {a b : Node}, x.1 = y.1 → n.sub? x.1 = some a → n.sub? y.1 = some b → a.d = x.2 → b.d = y.2 → x = y := by
      rintro ⟨x1, x2⟩ ⟨y1, y2⟩ a b h1 h2 h3 h4 h5
      simp only at *
      subst h1
      rw [h2] at h3; cases h3
      rw [← h4, ← h5]
    constructor
    · intro hl'
      obtain ⟨s1, s2, _⟩ := C78_read hl' h9' (nq hv) (nq hw') (nq h4') (nq h5')
      have e3 := fullPath_inj hg hu hp h1' hv h4' s1
      have e4 := fullPath_inj hg hu hq' h2' hw' h5' s2
      exact hne (by rw [ext (e1.symm.trans e3) h4 h4' h6 h6', ext (e2.symm.trans e4) h5 h5' h7 h7'])
    · intro hl'
      obtain ⟨s1, s2, _⟩ := C78_read hl' h9' (nq hw') (nq hv) (nq h4') (nq h5')
      have e3 := fullPath_inj hg hu hq' h1' hw' h4' s1
      have e4 := fullPath_inj hg hu hp h2' hv h5' s2
      have x1 := ext (e2.symm.trans e3) h5 h4' h7 h6'
      have x2 := ext (e1.symm.trans e4) h4 h5' h6 h7'
      subst x1 x2
      exact (hs _ _ hm).2.2.2.2.2 hm'

/-- **C78**: the text of the file determines its lines. -/
theorem C78_lines {l m : List Str} (hl : ∀ x ∈ l, '\n' ∉ x) (hm : ∀ x ∈ m, '\n' ∉ x) (h : unlines l = unlines m) : l = m := by
  induction l generalizing m with
  | nil =>
    cases m with
    | nil => rfl
    | cons x m => simp [unlines] at h
  | cons x l ih =>
    cases m with
    | nil => simp [unlines] at h
    | cons y m =>
      have e : ∀ (x : Str) (l : List Str), unlines (x :: l) = x ++ '\n' :: unlines l := by intro x l; simp [unlines]
      rw [e, e] at h
      obtain ⟨h1, h2⟩ := cut_at (hl x (by simp)) (hm y (by simp)) h
      rw [h1, ih (fun z hz => hl z (by simp [hz])) (fun z hz => hm z (by simp [hz])) h2]

/-- **C78**: without overlaps nothing is done, whatever the state of the file system; with them, something is always done. -/
theorem C78_quiet_partial (fs : Fs) (n : Node) (path : Str) (hr : ∀ p v, n.sub? p = some v → v.d.RangeOK) :
    check fs n path = .quiet ↔ ¬ ∃ p q v w, p ≠ [] ∧ q ≠ [] ∧ p ≠ q ∧ n.sub? p = some v ∧ n.sub? q = some w ∧ Clash p q v.d w.d := by
  obtain ⟨hs, hc⟩ := C36_report_partial n hr
  have hov : n.overlaps = [] ↔ ¬ ∃ p q v w, p ≠ [] ∧ q ≠ [] ∧ p ≠ q ∧ n.sub? p = some v ∧ n.sub? q = some w ∧ Clash p q v.d w.d := by
    constructor
    · rintro e ⟨p, q, v, w, h1, h2, h3, h4, h5, h6⟩
      rcases hc p q v w h1 h2 h3 h4 h5 h6 with h | h <;> rw [e] at h <;> simp at h
    · intro h
      cases e : n.overlaps with
      | nil => rfl
      | cons z l =>
        obtain ⟨x, y⟩ := z
        have hm : (x, y) ∈ n.overlaps := by rw [e]; simp
        obtain ⟨h1, h2, h3, _, h5, _⟩ := hs x y hm
        obtain ⟨a1, v, a2, a3⟩ := (mem_entries n x).1 h1
        obtain ⟨b1, w, b2, b3⟩ := (mem_entries n y).1 h2
        exact absurd ⟨x.1, y.1, v, w, a1, b1, h3, a2, b2, by rw [a3, b3]; exact h5⟩ h
  rw [← hov]
  unfold check
  simp only
  constructor
  · intro h
    by_cases e : n.overlaps = []
    · exact e
    · rw [if_neg e] at h
      split at h
      · unfold write at h
        split at h
        · cases h
        · simp only at h
          split at h
          · split at h
            · cases h
            · split at h <;> cases h
          · cases h
      · cases h
  · intro e; rw [if_pos e]

/-- **C78**: exactly when the exception of a library function leaves `checkForAddressCollisions`, and with it the construction of the device. -/
theorem C78_throws (fs : Fs) (n : Node) (path : Str) :
    (∃ f, check fs n path = .throws f) ↔ n.overlaps ≠ [] ∧ Overlap.DirReady fs ∧
      (fs.isRegularFile (reportPath fs.user path) = none ∨
        fs.isRegularFile (reportPath fs.user path) = some false ∧ fs.opens (reportPath fs.user path) = true ∧ fs.chmod (reportPath fs.user path) = false) := by
  rw [← haveDir_iff]
  unfold check
  simp only
  by_cases e : n.overlaps = []
  · rw [if_pos e]; simp [e]
  · rw [if_neg e]
    by_cases hd : haveDir fs = true
    · rw [if_pos hd, write]
      cases h1 : fs.isRegularFile (reportPath fs.user path) with
      | none => simp [e, hd]
      | some b =>
        cases h2 : fs.opens (reportPath fs.user path) <;> cases h3 : fs.chmod (reportPath fs.user path) <;> cases b <;> simp [e, hd]
    · rw [if_neg hd]; simp [hd]

theorem flatten_slash (p : Str) : '/' ∉ flatten p := by
  unfold flatten
  intro h
  obtain ⟨c, _, e⟩ := List.mem_map.1 h
  split at e
  · exact absurd e (by decide)
  · rename_i hc; exact hc e

theorem flatten_inj {p q : Str} (hp : '-' ∉ p) (hq : '-' ∉ q) (h : flatten p = flatten q) : p = q := by
  induction p generalizing q with
  | nil => cases q with
    | nil => rfl
    | cons => simp [flatten] at h
  | cons a p ih =>
    cases q with
    | nil => simp [flatten] at h
    | cons b q =>
      simp only [flatten, List.map_cons, List.cons.injEq] at h
      have e := ih (fun m => hp (by simp [m])) (fun m => hq (by simp [m])) h.2
      have ha : a ≠ '-' := fun e => hp (by simp [e])
      have hb : b ≠ '-' := fun e => hq (by simp [e])
      have : a = b := by
        have := h.1
        split at this <;> split at this <;> simp_all
      rw [this, e]

/-- **C78**: reports of different address files, or of different users, are different files, if the names of the address files contain no hyphens. -/
theorem C78_name_partial {u u' : Option Str} {p p' : Str} (hp : '-' ∉ p) (hp' : '-' ∉ p') (h : reportPath u p = reportPath u' p') : u = u' ∧ p = p' := by
  have hrev : ∀ u p, (reportPath u p).reverse = ("OverlapReport".toList ++ flatten p ++ ".txt".toList).reverse ++ '/' :: (dirName u).reverse := by
    intro u p; simp [reportPath]
  have hsl : ∀ p, '/' ∉ ("OverlapReport".toList ++ flatten p ++ ".txt".toList).reverse := by
    intro p
    rw [List.mem_reverse, List.mem_append, List.mem_append]
    rintro ((h | h) | h)
    · revert h; decide
    · exact flatten_slash p h
    · revert h; decide
  have h := congrArg List.reverse h
  rw [hrev, hrev] at h
  obtain ⟨h1, h2⟩ := cut_at (hsl p) (hsl p') h
  have h1 := List.reverse_inj.1 h1
  have h2 := List.reverse_inj.1 h2
  rw [List.append_assoc, List.append_assoc] at h1
  have h1 := List.append_cancel_right (List.append_cancel_left h1)
  refine ⟨?_, flatten_inj hp hp' h1⟩
  unfold dirName at h2
  have h2 := List.append_cancel_left (List.append_cancel_right h2)
  cases u with
  | none =>
    cases u' with
    | none => rfl
    | some b => simp only at h2; cases h2
  | some a =>
    cases u' with
    | none => simp only at h2; cases h2
    | some b => simp only at h2; rw [List.append_cancel_left h2]

/-- **C78 does not hold in full**: the reports of two address files can be the same file; the one that is read later takes the place of the other. -/
theorem C78_violated_name (u : Option Str) : "/top/a.xml".toList ≠ "/top-a.xml".toList ∧ reportPath u "/top/a.xml".toList = reportPath u "/top-a.xml".toList := by
  refine ⟨by decide, ?_⟩
  unfold reportPath
  have : flatten "/top/a.xml".toList = flatten "/top-a.xml".toList := by decide
  rw [this]

/-- A file system in which everything works. -/
def Overlap.goodFs : Fs where
  user := some "me".toList
  isDirectory := fun _ => some true
  createDirectories := fun _ => some false
  chmod := fun _ => true
  isRegularFile := fun _ => some false
  opens := fun _ => true
  clock := "2026-Nov-17 05:00:00.000000".toList

/-- The directory is there, but belongs to somebody else, and may not be searched. -/
def Overlap.closedFs : Fs := { goodFs with isRegularFile := fun _ => none, opens := fun _ => false }

/-- **C78 does not hold in full**: if the directory of the report is there but cannot be searched, then address tables with overlaps cannot be used at all, although an overlap is
otherwise only a warning. (A directory that cannot be made, or a file that cannot be opened, is logged.) -/
theorem C78_violated_throws (path : Str) : check closedFs overlapTree path = .throws none ∧
    (∀ b, check { closedFs with isRegularFile := fun _ => some b } overlapTree path = .noFile (reportPath (some "me".toList) path)) ∧
    check { closedFs with isDirectory := fun _ => none } overlapTree path = .noDirectory "/tmp/me/uhal".toList := by
  have hov : overlapTree.overlaps ≠ [] := by
    intro e
    have : overlapTree.overlaps.map (fun x => (x.1.1, x.2.1)) = [([0, 0], [0, 1]), ([1], [2])] := by decide +kernel
    rw [e] at this; cases this
  refine ⟨?_, ?_, ?_⟩
  · unfold check; simp only; rw [if_neg hov]; rfl
  · intro b; unfold check; simp only; rw [if_neg hov]; rfl
  · unfold check; simp only; rw [if_neg hov]; rfl

/-! ### The hypotheses can be met -/

theorem overlapTree_pos {p : List Nat} {v : Node} (hv : overlapTree.sub? p = some v) : p ∈ [[], [0], [0, 0], [0, 1], [1], [2]] := by
  by_cases hp : p = []
  · subst hp; simp
  · have := (mem_positions overlapTree p).2 ⟨hp, v, hv⟩
    have e : positions overlapTree = [[0], [0, 0], [0, 1], [1], [2]] := by decide +kernel
    rw [e] at this
    exact List.mem_cons_of_mem _ this

theorem overlapTree_ok : (∀ p v, overlapTree.sub? p = some v → v.d.RangeOK) ∧ IdsWithout '\n' overlapTree ∧ IdsWithout '\'' overlapTree := by
  refine ⟨?_, ?_, ?_⟩ <;> intro p v hv <;> have := overlapTree_pos hv <;> simp only [List.mem_cons, List.not_mem_nil, or_false] at this <;>
    rcases this with rfl | rfl | rfl | rfl | rfl | rfl <;> cases hv <;> decide

example : (∀ p v, overlapTree.sub? p = some v → v.d.RangeOK) ∧ IdsWithout '\n' overlapTree ∧ IdsWithout '\'' overlapTree ∧ GoodIds overlapTree ∧ UniqueIds overlapTree ∧
    Writable goodFs "/a.xml".toList ∧ '\n' ∉ goodFs.clock ∧
    ∃ p q v w, p ≠ [] ∧ q ≠ [] ∧ p ≠ q ∧ overlapTree.sub? p = some v ∧ overlapTree.sub? q = some w ∧ Clash p q v.d w.d := by
  refine ⟨overlapTree_ok.1, overlapTree_ok.2.1, overlapTree_ok.2.2, ?_, ?_, ?_, by decide, ?_⟩
  · refine .mk (by decide) ?_
    intro k hk
    simp only [List.mem_cons, List.not_mem_nil, or_false] at hk
    rcases hk with rfl | rfl | rfl
    · refine .mk (by decide) ?_
      intro k hk
      simp only [List.mem_cons, List.not_mem_nil, or_false] at hk
      rcases hk with rfl | rfl <;> exact .mk (by simp) (by simp)
    · exact .mk (by simp) (by simp)
    · exact .mk (by simp) (by simp)
  · refine .mk (by decide) ?_
    intro k hk
    simp only [List.mem_cons, List.not_mem_nil, or_false] at hk
    rcases hk with rfl | rfl | rfl
    · refine .mk (by decide) ?_
      intro k hk
      simp only [List.mem_cons, List.not_mem_nil, or_false] at hk
      rcases hk with rfl | rfl <;> exact .mk (by simp) (by simp)
    · exact .mk (by simp) (by simp)
    · exact .mk (by simp) (by simp)
  · exact ⟨.inl rfl, rfl, .inr ⟨rfl, rfl⟩⟩
  · refine ⟨[1], [2], _, _, by simp, by simp, by decide, rfl, rfl, ⟨0x13, ?_, ?_⟩, ?_⟩
    · show (0x10 : Nat) ≤ 0x13 ∧ (0x13 : Nat) < 0x10 + 8; omega
    · show (0x13 : Nat) = 0x13; rfl
    · rintro ⟨h, _⟩; cases h

/-- The whole file, for a small table. -/
example : check goodFs overlapTree "/t/a.xml".toList = .written "/tmp/me/uhal/OverlapReport-t-a.xml.txt".toList
    ("Overlap report for \"/t/a.xml\".\nWritten at 2026-Nov-17 05:00:00.000000.\n\n" ++
     "Node 'a.b' [address 0x00000001, mask 0x00000003] overlaps with 'a.c' [address 0x00000001, mask 0x00000006].\n" ++
     "Node 'd' [addresses 0x00000010 - 0x00000017] overlaps with 'e' [address 0x00000013].\n").toList := by decide +kernel

/-- Names without hyphens. -/
example : '-' ∉ "/t/a.xml".toList ∧ '-' ∉ "/t/b.xml".toList := by decide

/-- A tree without overlaps. -/
example : check closedFs (mk {} [mk { uid := ['a'], addr := 1#32, mode := .single } []]) "/t/a.xml".toList = .quiet := by decide +kernel

end Verif
