import Verif.Props.C06
/-!
# C09: transaction ids of programs with failures

`C09_ids_partial` of `Verif/Props/C06.lean` is about a stretch of a program in which no call fails. Here: whole programs, with any number of failed calls.
-/

set_option autoImplicit false

namespace Verif
open Spec
variable {τ : Type} {c : Cfg} {T : Transport τ}

/-- The calls that failed: with an exception other than the one of the argument check of masked writes, after which nothing has changed. -/
def failures (rs : List Res) : Nat := (rs.filter fun r => match r with | .exc e => decide (e ≠ .bitsForbidden) | _ => false).length

/-- The stretches between failures. -/
theorem epochs (hw : WF c) (hT : T.Total) (ops : List Op) (hops : ∀ op ∈ ops, op.ok c)
    (hcfg : c.ver = .v2 ∨ ∀ op ∈ ops, ∀ a m, op ≠ .readConfig a m) {s : St τ} {G : Gh}
    (hR : Rep c (fun _ _ => True) (fun _ => True) s G) (hG : G.items.map Item.cnt = List.range' 0 G.n) {rs : List Res} {s' : St τ}
    (hrun : runOps c T ops s = some (rs, s')) :
    ∃ (eps : List (List Fin')) (G' : Gh), Rep c (fun _ _ => True) (fun _ => True) s' G' ∧ eps.length = failures rs ∧
      s'.hist = G.base ++ (eps.flatten ++ G'.done).map (Fin'.buf c) ∧ (∀ f ∈ eps.flatten, FinOK c f) ∧
      (∀ ep ∈ eps, ∃ n, (ep.flatMap fun f => f.g.items).map Item.cnt = List.range' 0 n) ∧ G'.items.map Item.cnt = List.range' 0 G'.n := by
  induction ops generalizing s G rs with
  | nil => cases hrun; exact ⟨[], G, hR, rfl, hR.hist, by simp, by simp, hG⟩
  | cons op ops ih =>
    have hs := step hw (TOK_of_total hT) hR op (hops op (by simp))
    rw [runOps] at hrun
    generalize op.run c T s = r at hs hrun
    have hops' : ∀ op ∈ ops, op.ok c := fun op hop => hops op (by simp [hop])
    have hcfg' : c.ver = .v2 ∨ ∀ op ∈ ops, ∀ a m, op ≠ .readConfig a m :=
      hcfg.imp id (fun h op hop => h op (by simp [hop]))
    cases hs with
    | ok h s1 G1 its obj rep ext mono real hok tiles disp =>
      simp only [Option.map_eq_some_iff] at hrun
      obtain ⟨p, hp, he⟩ := hrun
      cases he
      obtain ⟨new, n1, n2, n3, n4⟩ := ext.items
      obtain ⟨eps, G', g1, g2, g3, g4, g5, g6⟩ := ih hops' hcfg' rep (by
        rw [n1, List.map_append, hG, n3, n4, ← List.range'_append_1, Nat.zero_add]) hp
      exact ⟨eps, G', g1, by rw [g2]; simp [failures], by rw [g3, ext.base], g4, g5, g6⟩
    | forbidden a d m hop hf =>
      simp only [Option.map_eq_some_iff] at hrun
      obtain ⟨p, hp, he⟩ := hrun
      cases he
      obtain ⟨eps, G', g1, g2, g3, g4, g5, g6⟩ := ih hops' hcfg' hR hG hp
      exact ⟨eps, G', g1, by rw [g2]; simp [failures], g3, g4, g5, g6⟩
    | refused a m s1 G1 hop hv rep ext mono =>
      exfalso
      rcases hcfg with h | h
      · rw [h] at hv; cases hv
      · exact h op (by simp) a m hop
    | failed e s1 us fail real =>
      simp only [Option.map_eq_some_iff] at hrun
      obtain ⟨p, hp, he⟩ := hrun
      cases he
      obtain ⟨t, _, hne⟩ := fail.tr
      obtain ⟨fs, new, f1, f2, f3, f4, f5, _⟩ := fail.hist
      obtain ⟨eps, G', g1, g2, g3, g4, g5, g6⟩ := ih hops' hcfg' (s := s1) (G := ⟨s1.hist, [], none, 0⟩)
        ⟨⟨by simp, fail.cur, by rw [fail.ctr]; rfl, by simp, by simp, by simp [Gh.all], by simp [Gh.all], by simp [Gh.all], by simp [Gh.ks], trivial⟩, by simp, fun _ => trivial⟩
        (by simp [Gh.items]) hp
      refine ⟨(G.done ++ fs) :: eps, G', g1, ?_, ?_, ?_, ?_, g6⟩
      · rw [List.length_cons, g2]; simp [failures, hne]
      · rw [g3, f1]; simp
      · intro f hf
        rw [List.flatten_cons, List.mem_append, List.mem_append] at hf
        rcases hf with (hf | hf) | hf
        · exact hR.doneOK f hf
        · exact (f2 f hf).1
        · exact g4 f hf
      · intro ep hep
        rcases List.mem_cons.1 hep with rfl | hep
        · exact ⟨G.n + new.length, by rw [f3, List.map_append, hG, f5, ← List.range'_append_1, Nat.zero_add]⟩
        · exact g5 ep hep

theorem parse_fins : ∀ l : List Fin', (∀ f ∈ l, FinOK c f) → parsePackets c.ver c.hub ((l.map (Fin'.buf c)).map Buf.send) =
    some (l.map fun f => f.all.map fun it => (it.cnt % 2 ^ idBits c.ver, it.txn)) := by
  intro l hl
  induction l with
  | nil => rfl
  | cons f l ih =>
    unfold parsePackets at ih ⊢
    simp only [List.map_cons, List.mapM_cons, parse_fin (hl f (by simp)), Option.map_some, Option.pure_def,
      Option.bind_eq_bind, Option.bind_some]
    rw [ih (fun f hf => hl f (by simp [hf]))]
    rfl

theorem unpad_fins : ∀ l : List Fin', (∀ f ∈ l, FinOK c f) →
    ((l.map fun f => f.all.map fun it => (it.cnt % 2 ^ idBits c.ver, it.txn)).map unpad).flatten.map Prod.fst =
      ((l.flatMap fun f => f.g.items).map Item.cnt).map (· % 2 ^ idBits c.ver) := by
  intro l hl
  induction l with
  | nil => rfl
  | cons f l ih =>
    have := ih (fun f hf => hl f (by simp [hf]))
    simp only [List.map_cons, List.flatten_cons, List.flatMap_cons, List.map_append]
    rw [unpad_fin (hl f (by simp)), this]
    simp [Function.comp_def]

/-- **C09.** Whole programs, from a fresh client or any moment at which no packet is open and the counter has been reset; any number of calls fail, in any way. The packets fall into
stretches, one for each failed call and one for what comes after the last failure, and in each stretch the transactions, without the padding, carry the ids 0, 1, 2, … modulo 2^11
(IPbus 1.3) or 2^12 (IPbus 2.0). `_partial`: in IPbus 1.3 without reads of the configuration space (`C09_gap`). -/
theorem C09_epochs_partial (c : Cfg) (T : Transport τ) (hw : WF c) (hT : T.Total) (s0 : St τ) (hI : Inv c s0)
    (hcur : s0.cur = none) (hctr : s0.ctr = 0) (ops : List Op) (hops : ∀ op ∈ ops, op.ok c)
    (hcfg : c.ver = .v2 ∨ ∀ op ∈ ops, ∀ a m, op ≠ .readConfig a m) (rs : List Res) (s : St τ)
    (hrun : runOps c T ops s0 = some (rs, s)) :
    ∃ eps : List (List (List (Nat × Txn))), parsePackets c.ver c.hub ((wire s).drop s0.hist.length) = some eps.flatten ∧ eps.length = failures rs + 1 ∧
      ∀ ep ∈ eps, ∃ n, (ep.map unpad).flatten.map Prod.fst = (List.range n).map (· % 2 ^ idBits c.ver) := by
  obtain ⟨fs, hR⟩ := hI.rebase hcur hctr
  obtain ⟨eps, G, g1, g2, g3, g4, g5, g6⟩ := epochs hw hT ops hops hcfg hR.rep (by simp [Gh.items]) hrun
  have hlast : parsePackets c.ver c.hub ((G.done.map (Fin'.buf c)).map Buf.send ++ (s.cur.toList).map Buf.send) =
      some ((G.done.map fun f => f.all.map fun it => (it.cnt % 2 ^ idBits c.ver, it.txn)) ++
        (G.cur.map fun g => g.items.map fun it => (it.cnt % 2 ^ idBits c.ver, it.txn)).toList) := by
    have h1 := parse_fins G.done g1.doneOK
    rw [g1.cur]
    cases hc : G.cur with
    | none => simpa using h1
    | some g =>
      have hg := parse_items c g.k g.items (g1.curOK g hc).legal
      unfold parsePackets at h1 ⊢
      simp only [Option.map_some, Option.toList_some, List.map_cons, List.map_nil, List.mapM_append, h1,
        List.mapM_cons, List.mapM_nil, hg, Option.pure_def, Option.bind_eq_bind, Option.bind_some]
  refine ⟨(eps.map fun ep => ep.map fun f => f.all.map fun it => (it.cnt % 2 ^ idBits c.ver, it.txn)) ++
    [(G.done.map fun f => f.all.map fun it => (it.cnt % 2 ^ idBits c.ver, it.txn)) ++
        (G.cur.map fun g => g.items.map fun it => (it.cnt % 2 ^ idBits c.ver, it.txn)).toList], ?_, by simp [g2], ?_⟩
  · have hd : (wire s).drop s0.hist.length = (eps.flatten.map (Fin'.buf c)).map Buf.send ++ ((G.done.map (Fin'.buf c)).map Buf.send ++ (s.cur.toList).map Buf.send) := by
      unfold wire
      rw [g3]
      simp
    have h1 := parse_fins eps.flatten g4
    rw [hd]
    unfold parsePackets at hlast h1 ⊢
    rw [List.mapM_append, h1, hlast]
    simp [List.map_flatten]
  · intro ep hep
    rcases List.mem_append.1 hep with hep | hep
    · obtain ⟨l, hl, rfl⟩ := List.mem_map.1 hep
      obtain ⟨n, hn⟩ := g5 l hl
      refine ⟨n, ?_⟩
      rw [unpad_fins l (fun f hf => g4 f (List.mem_flatten.2 ⟨l, hl, hf⟩)), hn, List.range_eq_range']
    · rw [List.mem_singleton.1 hep]
      refine ⟨G.n, ?_⟩
      rw [List.range_eq_range', ← g6, Gh.items, List.map_append, List.map_append, List.flatten_append, List.map_append, unpad_fins _ g1.doneOK, List.map_append]
      congr 1
      cases hc : G.cur with
      | none => rfl
      | some g =>
        simp only [Option.map_some, Option.toList_some, List.map_cons, List.map_nil, List.flatten_cons, List.flatten_nil,
          List.append_nil, Option.getD_some]
        rw [unpad_grp (g1.curOK g hc)]
        simp [Function.comp_def]

/-- **C09, unique.** Hence, whatever fails, no two transactions of a packet (padding aside) share an id, as long as the packet holds no more transactions than there are ids. -/
theorem C09_distinct_partial (c : Cfg) (T : Transport τ) (hw : WF c) (hT : T.Total) (s0 : St τ) (hI : Inv c s0)
    (hcur : s0.cur = none) (hctr : s0.ctr = 0) (ops : List Op) (hops : ∀ op ∈ ops, op.ok c)
    (hcfg : c.ver = .v2 ∨ ∀ op ∈ ops, ∀ a m, op ≠ .readConfig a m) (rs : List Res) (s : St τ)
    (hrun : runOps c T ops s0 = some (rs, s)) :
    ∃ pk, parsePackets c.ver c.hub ((wire s).drop s0.hist.length) = some pk ∧
      ∀ p ∈ pk, (unpad p).length ≤ 2 ^ idBits c.ver → ((unpad p).map Prod.fst).Nodup := by
  obtain ⟨eps, h1, _, h2⟩ := C09_epochs_partial c T hw hT s0 hI hcur hctr ops hops hcfg rs s hrun
  refine ⟨_, h1, ?_⟩
  intro p hp hlen
  obtain ⟨ep, he, hp⟩ := List.mem_flatten.1 hp
  obtain ⟨n, hn⟩ := h2 ep he
  obtain ⟨l1, l2, rfl⟩ := List.append_of_mem hp
  rw [List.map_append, List.map_cons, List.flatten_append, List.flatten_cons, List.map_append, List.map_append,
    ← List.append_assoc] at hn
  exact sublist_range_mod hn (by simpa using hlen)

/-- A program with two failed calls: the ids of its six packets, in three stretches. -/
example : ((runOps tinyCfg demoTr [.write 0x10 1, .rmwBits 0x11 2 3, .dispatch, .read 1, .read 2, .read 3, .dispatch, .read 1, .rmwBits 0x11 2 3] (St.init [false, true, true])).map fun p =>
    (failures p.1, (parsePackets .v2 tinyCfg.hub (wire p.2)).map (List.map (List.map Prod.fst)))) = some (2, some [[0], [1], [0], [0], [1], [2]]) := by
  decide +kernel

end Verif
