import Verif.Lemmas.UdpNet
import Verif.Props.C18
import Verif.Props.C15Tcp
/-!
# C63: programs over UDP through an unreliable network

See `/verif/properties.jsonl` and `DESIGN.md`. The client is uHAL over UDP (`Verif/Model/Client.lean`, `Verif/Model/Udp.lean`); the network and the target are those of
`Verif/Spec/Net.lean`, and know nothing of the client but the datagrams.
-/

set_option autoImplicit false
set_option linter.unusedSimpArgs false

namespace Verif
open Spec

section
variable {c : Cfg} {N : Nat} {σ ρ : Type} {tg : Target σ} {mem : ρ → σ} {resp : ρ → List W → Option (List W) × ρ}

/-- What is known of the client after a program without failures. -/
theorem udp_facts (h0 : 0 < N) (hN : N < 2 ^ 32) (hw : WF c) (ops : List Op) (hops : ∀ op ∈ ops, op.ok c)
    (plan : List (List Ev)) (rs : List Res) (s : St UdpT)
    (hrun : runOps c (udpT c N) (ops ++ [.dispatch]) (St.init ⟨.init, plan, 0, []⟩) = some (rs, s))
    (hok : ∀ e, .exc e ∈ rs → e = .bitsForbidden) :
    ∃ (fs : List Fin') (n : Nat), (∀ f ∈ fs, FinOK c f) ∧ (fs.flatMap fun f => f.g.items).map Item.cnt = List.range' 0 n ∧
      s.tr.u.sent = fs.map (Fin'.buf c) ∧ s.tr.u.rx.length = fs.length ∧ s.tr.u.outcomes = s.tr.u.sent.zip (s.tr.u.rx.map some) ∧
      s.tr.u.dirty = false ∧
      ∀ (k : Nat) (f : Fin') (ws : List W), fs[k]? = some f → s.tr.u.rx[k]? = some ws → ∃ h, (receiveReply c h (f.buf c) ws).1 = .ok := by
  have hops' : ∀ op ∈ ops ++ [.dispatch], op.ok c := by
    intro o ho
    rcases List.mem_append.1 ho with ho | ho
    · exact hops o ho
    · rw [List.mem_singleton.1 ho]; trivial
  obtain ⟨G, hRI, hcnt, hcur⟩ := good_ids hw (udp_whole (c := c) h0 hN) _ hops'
    (RI.init c _ UQuiet ⟨.init, plan, 0, []⟩ (UWhole.init plan) ⟨rfl, rfl, rfl, rfl⟩) (by simp [Gh.items]) (run_closed _ hrun) hok
  have hcur' : G.cur = none := hcur (by simp)
  obtain ⟨q1, q2, q3, q4⟩ := hRI.rep.fl hcur'
  have hW := hRI.rep.inv
  have hhist : s.hist = G.done.map (Fin'.buf c) := by rw [hRI.rep.hist, hRI.base]; rfl
  have hsent : s.tr.u.sent = G.done.map (Fin'.buf c) := by rw [q2, hW.all, hhist]
  have hitems : G.items = G.done.flatMap fun f => f.g.items := by simp [Gh.items, hcur']
  rw [hitems] at hcnt
  obtain ⟨ho, ha⟩ := hW.told hW.exc (by intro a b; rw [q3]; simp)
  have hrl : s.tr.u.rx.length = G.done.length := by rw [q4, hW.all, hhist, List.length_map]
  refine ⟨G.done, G.n, hRI.rep.doneOK, hcnt, hsent, hrl, ?_, hW.dirty, ?_⟩
  · rw [ho, List.zip_map_right, ← hW.inv.mat, List.map_map]
    rfl
  · intro k f ws hf hws
    have hmem : (f.buf c, ws) ∈ s.tr.u.matched.map fun x => (x.buf, x.reply) := by
      rw [hW.inv.mat, List.mem_iff_getElem?]
      refine ⟨k, ?_⟩
      rw [List.getElem?_zip_eq_some, hsent, List.getElem?_map, hf]
      exact ⟨rfl, hws⟩
    obtain ⟨x, hx, he⟩ := List.mem_map.1 hmem
    obtain ⟨e1, e2⟩ := Prod.mk.inj he
    obtain ⟨h, hh⟩ := ha x hx
    rw [e1, e2] at hh
    exact ⟨h, hh⟩

/-- The datagrams on the wire. -/
def Udp.datagrams (u : Udp) : List (List W) := u.sent.map Buf.send

/-- **C63, the right reply.** A program over UDP in which no call fails (masked writes may be refused), on every schedule of the client, over a network that
loses, duplicates, delays and reorders datagrams in both directions, with a conforming target behind it; between a request and the reply taken for it there are fewer transactions than there are
transaction ids. Then the reply that the client took for a packet is one that the target gave to that packet. -/
theorem C63_right_reply (h0 : 0 < N) (hN : N < 2 ^ 32) (hw : WF c) (hcap : CapOK c) (hr : c.ver = .v2 → Roomy c) (hc : Conforms c tg mem resp)
    (ops : List Op) (hops : ∀ op ∈ ops, op.ok c) (plan : List (List Ev)) (rs : List Res) (s : St UdpT)
    (hrun : runOps c (udpT c N) (ops ++ [.dispatch]) (St.init ⟨.init, plan, 0, []⟩) = some (rs, s))
    (hok : ∀ e, .exc e ∈ rs → e = .bitsForbidden) {e e' : ρ} {arr got : List Nat}
    (hnet : Carried resp s.tr.u.datagrams s.tr.u.rx e e' arr got) (hwin : InWindow c s.tr.u.datagrams arr got) :
    got.length = s.tr.u.sent.length ∧
    ∀ (k : Nat) (b : Buf), s.tr.u.sent[k]? = some b → ∃ j ws, got[k]? = some j ∧ arr[j]? = some k ∧ s.tr.u.rx[k]? = some ws ∧
      (resp (arrive resp e ((arr.take j).filterMap fun i => s.tr.u.datagrams[i]?)).2 b.send).1 = some ws := by
  obtain ⟨fs, n, f1, f2, f3, f4, f5, f6, f7⟩ := udp_facts h0 hN hw ops hops plan rs s hrun hok
  have hgl : got.length = s.tr.u.rx.length := by
    have := congrArg List.length hnet.back
    simpa using this.symm
  have hdg : s.tr.u.datagrams = fs.map fun f => (f.buf c).send := by rw [Udp.datagrams, f3, List.map_map]; rfl
  refine ⟨by rw [hgl, f4, f3, List.length_map], ?_⟩
  intro k b hb
  rw [f3, List.getElem?_map, Option.map_eq_some_iff] at hb
  obtain ⟨f, hf, rfl⟩ := hb
  have hk : k < fs.length := (List.getElem?_eq_some_iff.1 hf).1
  have hj : got[k]? = some (got[k]'(by omega)) := List.getElem?_eq_getElem (by omega)
  have hws : s.tr.u.rx[k]? = some (s.tr.u.rx[k]'(by omega)) := List.getElem?_eq_getElem (by omega)
  generalize got[k]'(by omega) = j at hj
  generalize s.tr.u.rx[k]'(by omega) = ws at hws
  have hback := congrArg (fun l => l[k]?) hnet.back
  simp only [List.getElem?_map, hj, hws, Option.map_some, Option.some.injEq] at hback
  have hlen : (arr.filterMap fun i => s.tr.u.datagrams[i]?).length = arr.length := by
    rw [← List.length_map (f := some), List.map_filterMap_some_eq_filter_map_isSome, List.filter_eq_self.2, List.length_map]
    intro x hx
    obtain ⟨i, hi, rfl⟩ := List.mem_map.1 hx
    rw [List.getElem?_eq_getElem (hnet.known i hi)]
    rfl
  cases hps : (arr.filterMap fun i => s.tr.u.datagrams[i]?)[j]? with
  | none =>
    rw [List.getElem?_eq_none (by rw [arrive_length]; exact List.getElem?_eq_none_iff.1 hps)] at hback
    cases hback
  | some p =>
    have hg := filterMap_get s.tr.u.datagrams arr hnet.known j
    rw [hps] at hg
    cases hi : arr[j]? with
    | none => rw [hi] at hg; cases hg
    | some i =>
      rw [hi, Option.bind_some] at hg
      rw [arrive_get _ _ _ _ hps, Option.join_some] at hback
      rw [hdg, List.getElem?_map] at hg
      obtain ⟨f', hf', rfl⟩ := Option.map_eq_some_iff.1 hg.symm
      obtain ⟨it, l, a1, a2⟩ := fin_first hr (f1 f (List.mem_of_getElem? hf))
      obtain ⟨it', l', b1, b2⟩ := fin_first hr (f1 f' (List.mem_of_getElem? hf'))
      obtain ⟨hh, hacc⟩ := f7 k f ws hf hws
      have hid := accepted_id hw hcap hr hc (f1 f (List.mem_of_getElem? hf)) (f1 f' (List.mem_of_getElem? hf')) a2 b2 hback.symm hacc
      have hik : i = k := same_packet hr f1 f2 hf' hf b1 a1 hid.symm (by rw [← hdg]; exact hwin k j i hj hi)
      subst hik
      rw [hf] at hf'
      cases hf'
      refine ⟨j, ws, hj, hi, hws, ?_⟩
      rw [hback]
      congr 2
      have : ((arr.take j).filterMap fun i => s.tr.u.datagrams[i]?) = (arr.filterMap fun i => s.tr.u.datagrams[i]?).take j := by
        apply List.ext_getElem?
        intro x
        rw [filterMap_get s.tr.u.datagrams (arr.take j) (fun i hi => hnet.known i (List.mem_of_mem_take hi)), List.getElem?_take, List.getElem?_take,
          filterMap_get s.tr.u.datagrams arr hnet.known]
        split <;> rfl
      rw [this]

/-- What the user sees when the datagrams arrive one by one in order. -/
theorem udp_in_order (h0 : 0 < N) (hN : N < 2 ^ 32) (hw : WF c) (hcap : CapOK c) (hr : c.ver = .v2 → Roomy c) (hc : Conforms c tg mem resp)
    (ops : List Op) (hops : ∀ op ∈ ops, op.ok c ∧ op.maskOK c.wrapNeg) (plan : List (List Ev)) (rs : List Res) (s : St UdpT)
    (hrun : runOps c (udpT c N) (ops ++ [.dispatch]) (St.init ⟨.init, plan, 0, []⟩) = some (rs, s))
    (hok : ∀ e, .exc e ∈ rs → e = .bitsForbidden) {e e' : ρ} {arr got : List Nat}
    (hnet : Carried resp s.tr.u.datagrams s.tr.u.rx e e' arr got)
    (harr : arr = List.range s.tr.u.sent.length) (hgot : got = List.range s.tr.u.sent.length) :
    rs.map (resShow c.wrapNeg s.tr.u.heap) = (seqRun c.ver tg (ops ++ [.dispatch]) (mem e)).1.map (Option.map ValOut.data) ∧
    mem e' = (seqRun c.ver tg (ops ++ [.dispatch]) (mem e)).2 := by
  obtain ⟨fs, n, f1, f2, f3, f4, f5, f6, f7⟩ := udp_facts h0 hN hw ops (fun o ho => (hops o ho).1) plan rs s hrun hok
  have hdl : s.tr.u.datagrams.length = s.tr.u.sent.length := by simp [Udp.datagrams]
  have hps : (arr.filterMap fun i => s.tr.u.datagrams[i]?) = s.tr.u.datagrams := by rw [harr, ← hdl, filterMap_range]
  have hback := hnet.back
  have hdone := hnet.done
  rw [hps] at hback hdone
  have hrx : s.tr.u.rx.map some = (arrive resp e s.tr.u.datagrams).1 := by
    rw [hback, hgot, ← hdl]
    apply List.ext_getElem?
    intro j
    rw [List.getElem?_map]
    by_cases hj : j < s.tr.u.datagrams.length
    · have h1 : j < (arrive resp e s.tr.u.datagrams).1.length := by rw [arrive_length]; exact hj
      rw [List.getElem?_range hj, List.getElem?_eq_getElem h1]
      have h2 := congrArg (fun l => l[j]?) hback
      simp only [List.getElem?_map, hgot, ← hdl, List.getElem?_range hj, Option.map_some, List.getElem?_eq_getElem h1] at h2
      have h3 : j < s.tr.u.rx.length := by rw [f4]; rw [hdl, f3, List.length_map] at hj; exact hj
      rw [List.getElem?_eq_getElem h3] at h2
      simp only [Option.map_some, Option.some.injEq, Option.join_some] at h2
      rw [Option.map_some, List.getElem?_eq_getElem h1, Option.join_some]
    · rw [List.getElem?_eq_none (by simpa using hj), List.getElem?_eq_none (by rw [arrive_length]; omega)]
      rfl
  have hfol := arrive_follows (resp := resp) s.tr.u.sent e
  rw [show s.tr.u.sent.map Buf.send = s.tr.u.datagrams from rfl, ← hrx, ← f5, hdone] at hfol
  exact C16_udp h0 hN hw hcap hr hc ops hops plan rs s hrun f6 e e' hfol

/-- **C63.** As `C63_right_reply`; moreover the network does not duplicate requests, and in one of the two directions it does not reorder datagrams. Then the user sees what the calls give one
at a time, each executed exactly once, and the target has the memory that they leave. (`C63_violated_duplicate`, `C63_violated_reorder`: neither of the two can be left out.) -/
theorem C63_once_partial (h0 : 0 < N) (hN : N < 2 ^ 32) (hw : WF c) (hcap : CapOK c) (hr : c.ver = .v2 → Roomy c) (hc : Conforms c tg mem resp)
    (ops : List Op) (hops : ∀ op ∈ ops, op.ok c ∧ op.maskOK c.wrapNeg) (plan : List (List Ev)) (rs : List Res) (s : St UdpT)
    (hrun : runOps c (udpT c N) (ops ++ [.dispatch]) (St.init ⟨.init, plan, 0, []⟩) = some (rs, s))
    (hok : ∀ e, .exc e ∈ rs → e = .bitsForbidden) {e e' : ρ} {arr got : List Nat}
    (hnet : Carried resp s.tr.u.datagrams s.tr.u.rx e e' arr got) (hwin : InWindow c s.tr.u.datagrams arr got)
    (hdup : arr.Nodup) (hord : arr.Pairwise (· < ·) ∨ got.Pairwise (· < ·)) :
    rs.map (resShow c.wrapNeg s.tr.u.heap) = (seqRun c.ver tg (ops ++ [.dispatch]) (mem e)).1.map (Option.map ValOut.data) ∧
    mem e' = (seqRun c.ver tg (ops ++ [.dispatch]) (mem e)).2 := by
  obtain ⟨hgl, hright⟩ := C63_right_reply h0 hN hw hcap hr hc ops (fun o ho => (hops o ho).1) plan rs s hrun hok hnet hwin
  have hdl : s.tr.u.datagrams.length = s.tr.u.sent.length := by simp [Udp.datagrams]
  have hlt : ∀ i ∈ arr, i < s.tr.u.sent.length := fun i hi => hdl ▸ hnet.known i hi
  have hat : ∀ k, k < s.tr.u.sent.length → ∃ j, got[k]? = some j ∧ arr[j]? = some k := by
    intro k hk
    obtain ⟨j, ws, h1, h2, _⟩ := hright k _ (List.getElem?_eq_getElem hk)
    exact ⟨j, h1, h2⟩
  have harr : arr = List.range s.tr.u.sent.length := by
    rcases hord with ho | ho
    · refine range_sorted ho hlt fun i hi => ?_
      obtain ⟨j, _, h2⟩ := hat i hi
      exact List.mem_of_getElem? h2
    · refine sublist_range ?_ hdup hlt
      have hmem : ∀ j ∈ got, j < arr.length := by
        intro j hj
        obtain ⟨k, hk⟩ := List.mem_iff_getElem?.1 hj
        have hkl := (List.getElem?_eq_some_iff.1 hk).1
        obtain ⟨j', h1, h2⟩ := hat k (by omega)
        rw [hk] at h1
        cases h1
        exact (List.getElem?_eq_some_iff.1 h2).1
      have hsub := List.map_getElem_sublist (l := arr) (is := got.attach.map fun j => ⟨j.1, hmem j.1 j.2⟩) (by
        rw [List.pairwise_map]
        have : got.attach.Pairwise fun a b => a.1 < b.1 := by
          rw [← List.pairwise_map (f := Subtype.val) (R := (· < ·))]
          rw [List.attach_map_subtype_val]
          exact ho
        exact this)
      have heq : (got.attach.map fun j => (⟨j.1, hmem j.1 j.2⟩ : Fin arr.length)).map (arr[·]) = List.range s.tr.u.sent.length := by
        apply List.ext_getElem (by simp [hgl])
        intro k h1 h2
        have hk : k < s.tr.u.sent.length := by simpa using h2
        obtain ⟨j, g1, g2⟩ := hat k hk
        obtain ⟨_, g1⟩ := List.getElem?_eq_some_iff.1 g1
        obtain ⟨_, g2⟩ := List.getElem?_eq_some_iff.1 g2
        simp [g1, g2]
      rw [heq] at hsub
      exact hsub
  refine udp_in_order h0 hN hw hcap hr hc ops hops plan rs s hrun hok hnet harr ?_
  apply List.ext_getElem (by simp [hgl])
  intro k h1 h2
  have hk : k < s.tr.u.sent.length := by simpa using h2
  obtain ⟨j, g1, g2⟩ := hat k hk
  obtain ⟨_, g1⟩ := List.getElem?_eq_some_iff.1 g1
  have hj : j < s.tr.u.sent.length := by
    have := (List.getElem?_eq_some_iff.1 g2).1
    rw [harr] at this
    simpa using this
  rw [harr, List.getElem?_range hj] at g2
  cases g2
  simp [g1]

/-- **C63, a network that only loses datagrams** and keeps their order in both directions: the same, and transaction ids are not needed. -/
theorem C63_fifo (h0 : 0 < N) (hN : N < 2 ^ 32) (hw : WF c) (hcap : CapOK c) (hr : c.ver = .v2 → Roomy c) (hc : Conforms c tg mem resp)
    (ops : List Op) (hops : ∀ op ∈ ops, op.ok c ∧ op.maskOK c.wrapNeg) (plan : List (List Ev)) (rs : List Res) (s : St UdpT)
    (hrun : runOps c (udpT c N) (ops ++ [.dispatch]) (St.init ⟨.init, plan, 0, []⟩) = some (rs, s))
    (hok : ∀ e, .exc e ∈ rs → e = .bitsForbidden) {e e' : ρ} {arr got : List Nat}
    (hnet : Carried resp s.tr.u.datagrams s.tr.u.rx e e' arr got) (hin : arr.Pairwise (· < ·)) (hout : got.Pairwise (· < ·)) :
    rs.map (resShow c.wrapNeg s.tr.u.heap) = (seqRun c.ver tg (ops ++ [.dispatch]) (mem e)).1.map (Option.map ValOut.data) ∧
    mem e' = (seqRun c.ver tg (ops ++ [.dispatch]) (mem e)).2 := by
  obtain ⟨fs, n, f1, f2, f3, f4, f5, f6, f7⟩ := udp_facts h0 hN hw ops (fun o ho => (hops o ho).1) plan rs s hrun hok
  have hdl : s.tr.u.datagrams.length = s.tr.u.sent.length := by simp [Udp.datagrams]
  have hlt : ∀ i ∈ arr, i < s.tr.u.sent.length := fun i hi => hdl ▸ hnet.known i hi
  have hgl : got.length = s.tr.u.sent.length := by
    have := congrArg List.length hnet.back
    rw [List.length_map, List.length_map, f4] at this
    rw [← this, f3, List.length_map]
  have hgm : ∀ j ∈ got, j < arr.length := by
    intro j hj
    obtain ⟨k, hk⟩ := List.mem_iff_getElem?.1 hj
    have hback := congrArg (fun l => l[k]?) hnet.back
    simp only [List.getElem?_map, hk, Option.map_some] at hback
    by_cases hja : j < (arrive resp e (arr.filterMap fun i => s.tr.u.datagrams[i]?)).1.length
    · rw [arrive_length] at hja
      exact Nat.lt_of_lt_of_le hja (List.length_filterMap_le _ _)
    · rw [List.getElem?_eq_none (Nat.le_of_not_lt hja)] at hback
      generalize hx : s.tr.u.rx[k]? = o at hback
      cases o with
      | none =>
        have h1 := (List.getElem?_eq_some_iff.1 hk).1
        have h2 := List.getElem?_eq_none_iff.1 hx
        rw [hgl, f3, List.length_map] at h1
        omega
      | some y => simp at hback
  -- a strictly increasing list of K numbers below K
  have key : ∀ (l : List Nat) (K : Nat), l.Pairwise (· < ·) → (∀ i ∈ l, i < K) → K ≤ l.length → l = List.range K := by
    intro l K hp hm hl
    have hnd : l.Nodup := hp.imp (fun h => Nat.ne_of_lt h)
    refine range_sorted hp hm fun i hi => ?_
    have hge : ∀ j (hj : j < l.length), j ≤ l[j] := by
      intro j
      induction j with
      | zero => intro _; omega
      | succ j ih =>
        intro hj
        have := List.pairwise_iff_getElem.1 hp j (j + 1) (by omega) hj (by omega)
        have := ih (by omega)
        omega
    have hle : ∀ d j (hj : j < l.length), j + d + 1 = l.length → l[j] + d < K := by
      intro d
      induction d with
      | zero => intro j hj _; have := hm l[j] (List.getElem_mem hj); omega
      | succ d ih =>
        intro j hj hjd
        have h1 := ih (j + 1) (by omega) (by omega)
        have := List.pairwise_iff_getElem.1 hp j (j + 1) hj (by omega) (by omega)
        omega
    have h1 := hge i (by omega)
    have h2 := hle (l.length - 1 - i) i (by omega) (by omega)
    have : l[i]'(by omega) = i := by omega
    rw [← this]
    exact List.getElem_mem _
  have hal : arr.length ≤ s.tr.u.sent.length := by
    have hge : ∀ j (hj : j < arr.length), j ≤ arr[j] := by
      intro j
      induction j with
      | zero => intro _; omega
      | succ j ih =>
        intro hj
        have := List.pairwise_iff_getElem.1 hin j (j + 1) (by omega) hj (by omega)
        have := ih (by omega)
        omega
    cases hx : arr.length with
    | zero => omega
    | succ l =>
      have h1 := hge l (by omega)
      have h2 := hlt _ (List.getElem_mem (show l < arr.length by omega))
      omega
  have hgot := key got s.tr.u.sent.length hout (fun j hj => Nat.lt_of_lt_of_le (hgm j hj) hal) (by omega)
  have hal' : s.tr.u.sent.length ≤ arr.length := by
    cases hx : s.tr.u.sent.length with
    | zero => omega
    | succ l =>
      have := hgm l (by rw [hgot, hx]; simp)
      omega
  exact udp_in_order h0 hN hw hcap hr hc ops hops plan rs s hrun hok hnet (key arr _ hin hlt hal') hgot

end

/-! ## Violations, and non-vacuity -/

/-- A program of two packets; the replies taken by the client are `a` and `b`. -/
def netRun (ops : List Op) (a b : List W) : Option (List Res × St UdpT) :=
  runOps smallCfg (udpT smallCfg 16) (ops ++ [.dispatch]) (St.init ⟨.init, [[], [.sendDone true],
    [.sendDone true, .recvBegin (some a), .recvEnd, .recvBegin (some b), .recvEnd]], 0, []⟩)

/-- Two writes; they and a read make two packets. -/
def netOps : List Op := [.write 1 7, .write 2 8, .read 1]

/-- The packets, and the replies to them; the read gives `v`. -/
def netReqs : List (List W) := [[0x200000F0, 0x2000011F, 1, 7, 0x2001011F, 2, 8], [0x200000F0, 0x2002010F, 1]]
def netReps (v : W) : List (List W) := [[0x200000F0, 0x20000110, 0x20010110], [0x200000F0, 0x20020100, v]]

/-- The target, freshly started with all registers zero. -/
def netDev : Dev (W → W) := ⟨fun _ => 0, 0⟩
def netResp : Dev (W → W) → List W → Option (List W) × Dev (W → W) := viaHub smallCfg (dummyTarget fun _ => 0)

/-- The run with the replies in the order of the packets. -/
theorem netRun_some (v : W) (hv : v = 0 ∨ v = 7) : ∃ rs s, netRun netOps ((netReps v)[0]'(by simp [netReps])) ((netReps v)[1]'(by simp [netReps])) = some (rs, s) ∧
    s.tr.u.datagrams = netReqs ∧ s.tr.u.rx = netReps v ∧ (rs.map fun r => match r with | .exc _ => false | _ => true) = [true, true, true, true] ∧
    rs.map (resShow true s.tr.u.heap) = [some (.data []), some (.data []), some (.data [v]), some (.data [])] := by
  rcases hv with rfl | rfl
  · have h : (netRun netOps ((netReps 0)[0]'(by simp [netReps])) ((netReps 0)[1]'(by simp [netReps]))).map (fun p => (p.2.tr.u.datagrams, p.2.tr.u.rx,
        p.1.map fun r => match r with | .exc _ => false | _ => true)) = some (netReqs, netReps 0, [true, true, true, true]) := by decide +kernel
    have h' : (netRun netOps ((netReps 0)[0]'(by simp [netReps])) ((netReps 0)[1]'(by simp [netReps]))).map (fun p => p.1.map (resShow true p.2.tr.u.heap)) =
        some [some (.data []), some (.data []), some (.data [0]), some (.data [])] := by decide +kernel
    obtain ⟨⟨rs, s⟩, h1, h2⟩ := Option.map_eq_some_iff.1 h
    rw [h1] at h'
    simp only [Option.map_some, Option.some.injEq, Prod.mk.injEq] at h2 h'
    exact ⟨rs, s, h1, h2.1, h2.2.1, h2.2.2, h'⟩
  · have h : (netRun netOps ((netReps 7)[0]'(by simp [netReps])) ((netReps 7)[1]'(by simp [netReps]))).map (fun p => (p.2.tr.u.datagrams, p.2.tr.u.rx,
        p.1.map fun r => match r with | .exc _ => false | _ => true)) = some (netReqs, netReps 7, [true, true, true, true]) := by decide +kernel
    have h' : (netRun netOps ((netReps 7)[0]'(by simp [netReps])) ((netReps 7)[1]'(by simp [netReps]))).map (fun p => p.1.map (resShow true p.2.tr.u.heap)) =
        some [some (.data []), some (.data []), some (.data [7]), some (.data [])] := by decide +kernel
    obtain ⟨⟨rs, s⟩, h1, h2⟩ := Option.map_eq_some_iff.1 h
    rw [h1] at h'
    simp only [Option.map_some, Option.some.injEq, Prod.mk.injEq] at h2 h'
    exact ⟨rs, s, h1, h2.1, h2.2.1, h2.2.2, h'⟩

theorem no_exc_of {rs : List Res} {n : Nat} (h : (rs.map fun r => match r with | .exc _ => false | _ => true) = List.replicate n true) :
    ∀ e, Res.exc e ∉ rs := by
  intro e he
  have : false ∈ rs.map fun r => match r with | .exc _ => false | _ => true := List.mem_map.2 ⟨_, he, rfl⟩
  rw [h] at this
  simp at this

/-- Non-vacuity of `C63_right_reply`, `C63_once_partial` and `C63_fifo`: the datagrams arrive in order. -/
example : ∃ rs s, netRun netOps ((netReps 7)[0]'(by simp [netReps])) ((netReps 7)[1]'(by simp [netReps])) = some (rs, s) ∧ (∀ e, .exc e ∉ rs) ∧
    Carried netResp s.tr.u.datagrams s.tr.u.rx netDev (arrive netResp netDev netReqs).2 [0, 1] [0, 1] ∧ InWindow smallCfg s.tr.u.datagrams [0, 1] [0, 1] := by
  obtain ⟨rs, s, h1, h2, h3, h4, h5⟩ := netRun_some 7 (.inr rfl)
  refine ⟨rs, s, h1, no_exc_of (n := 4) h4, ?_, ?_⟩
  · rw [h2, h3]
    exact ⟨by decide, rfl, by decide +kernel⟩
  · rw [h2]
    intro k j i hk hj
    match k, hk with
    | 0, rfl => cases hj; decide +kernel
    | 1, rfl => cases hj; decide +kernel

/-- Non-vacuity of `C63_right_reply` with a network that duplicates both requests and loses the answers to the first copies. -/
example : Carried netResp netReqs (netReps 7) netDev (arrive netResp netDev (netReqs ++ netReqs)).2 [0, 1, 0, 1] [2, 3] ∧ InWindow smallCfg netReqs [0, 1, 0, 1] [2, 3] := by
  refine ⟨⟨by decide, rfl, by decide +kernel⟩, ?_⟩
  intro k j i hk hj
  match k, hk with
  | 0, rfl => cases hj; decide +kernel
  | 1, rfl => cases hj; decide +kernel

/-- Violation of C63: nothing is lost or duplicated, but the two requests change places on their way to the target, and the two replies on their way back. The client accepts
them (`ProtocolIPbus.cpp` checks transaction ids and nothing else; with packet id 0 the target executes what arrives). The user's read of register 1 gives 0
although the user has written 7 to it before, and no call fails. -/
theorem C63_violated_reorder : ∃ rs s, netRun netOps ((netReps 0)[0]'(by simp [netReps])) ((netReps 0)[1]'(by simp [netReps])) = some (rs, s) ∧ (∀ e, .exc e ∉ rs) ∧
    Carried netResp s.tr.u.datagrams s.tr.u.rx netDev (arrive netResp netDev netReqs.reverse).2 [1, 0] [1, 0] ∧ InWindow smallCfg s.tr.u.datagrams [1, 0] [1, 0] ∧
    rs.map (resShow true s.tr.u.heap) = [some (.data []), some (.data []), some (.data [0]), some (.data [])] ∧
    (seqRun .v2 (dummyTarget fun _ => 0) (netOps ++ [.dispatch]) netDev.mem).1.map (Option.map ValOut.data) =
      [some (.data []), some (.data []), some (.data [7]), some (.data [])] := by
  obtain ⟨rs, s, h1, h2, h3, h4, h5⟩ := netRun_some 0 (.inl rfl)
  refine ⟨rs, s, h1, no_exc_of (n := 4) h4, ?_, ?_, h5, by decide +kernel⟩
  · rw [h2, h3]
    exact ⟨by decide, rfl, by decide +kernel⟩
  · rw [h2]
    intro k j i hk hj
    match k, hk with
    | 0, rfl => cases hj; decide +kernel
    | 1, rfl => cases hj; decide +kernel

/-- Violation of C63: one packet with one read-modify-write sum, its request duplicated by the network. The target executes it twice, the user sees the result of the first time
and no call fails; the register is left with a value that no execution of the program leaves. -/
theorem C63_violated_duplicate : ∃ rs s, runOps smallCfg (udpT smallCfg 16) [.rmwSum 1 5, .dispatch]
      (St.init ⟨.init, [[], [.sendDone true, .recvBegin (some [0x200000F0, 0x20000150, 0]), .recvEnd]], 0, []⟩) = some (rs, s) ∧ (∀ e, .exc e ∉ rs) ∧
    ∃ e', Carried netResp s.tr.u.datagrams s.tr.u.rx netDev e' [0, 0] [0] ∧ InWindow smallCfg s.tr.u.datagrams [0, 0] [0] ∧
      e'.mem 1 = 10 ∧ (seqRun .v2 (dummyTarget fun _ => 0) [.rmwSum 1 5, .dispatch] netDev.mem).2 1 = 5 := by
  have h : (runOps smallCfg (udpT smallCfg 16) [.rmwSum 1 5, .dispatch]
      (St.init ⟨.init, [[], [.sendDone true, .recvBegin (some [0x200000F0, 0x20000150, 0]), .recvEnd]], 0, []⟩)).map (fun p => (p.2.tr.u.datagrams, p.2.tr.u.rx,
        p.1.map fun r => match r with | .exc _ => false | _ => true)) =
      some ([[0x200000F0, 0x2000015F, 1, 5]], [[0x200000F0, 0x20000150, 0]], [true, true]) := by decide +kernel
  obtain ⟨⟨rs, s⟩, h1, h2⟩ := Option.map_eq_some_iff.1 h
  simp only [Prod.mk.injEq] at h2
  refine ⟨rs, s, h1, no_exc_of (n := 2) h2.2.2, (arrive netResp netDev [[0x200000F0, 0x2000015F, 1, 5], [0x200000F0, 0x2000015F, 1, 5]]).2, ?_, ?_,
    by decide +kernel, by decide +kernel⟩
  · rw [h2.1, h2.2.1]
    exact ⟨by decide, rfl, by decide +kernel⟩
  · rw [h2.1]
    intro k j i hk hj
    match k, hk with
    | 0, rfl => cases hj; decide +kernel

end Verif
