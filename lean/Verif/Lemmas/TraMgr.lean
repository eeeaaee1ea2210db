import Verif.Model.TraMgr
import Verif.Props.C42
/-!
# The transaction manager: lemmas
-/

set_option autoImplicit false
set_option linter.unusedSimpArgs false

namespace Verif.TraMgr
open Verif.Hub (Bytes)

/-! ## Bytes -/

theorem ofBE_be16 {n : Nat} (h : n < 65536) : ofBE (be16 n) = n := by
  simp only [ofBE, be16, List.foldl]; omega

theorem ofBE_be32 {n : Nat} (h : n < 4294967296) : ofBE (be32 n) = n := by
  simp only [ofBE, be32, List.foldl]; omega

/-- An address that fits. -/
def Addr.ok (a : Addr) : Prop := a.ip < 2 ^ 32 ∧ a.port < 2 ^ 16

/-- A packet that can be put in a message to the ControlHub: whole words, and their number fits in sixteen bits. -/
def Whole (p : Bytes) : Prop := p.length % 4 = 0 ∧ p.length / 4 < 65536

/-- The message that carries some packets for one target, as in the documentation of the protocol (ch_transaction_manager.erl:229):
address, port, number of words, words. -/
def encode (a : Addr) (ps : List Bytes) : Bytes :=
  ps.flatMap fun p => be32 a.ip ++ be16 a.port ++ be16 (p.length / 4) ++ p

theorem encode_cons (a : Addr) (p : Bytes) (ps : List Bytes) :
    encode a (p :: ps) = be32 a.ip ++ (be16 a.port ++ (be16 (p.length / 4) ++ (p ++ encode a ps))) := by
  simp [encode]

theorem encode_length_mod (a : Addr) (ps : List Bytes) (h : ∀ p ∈ ps, Whole p) : (encode a ps).length % 4 = 0 := by
  induction ps with
  | nil => rfl
  | cons p ps ih =>
    have h1 := (h p (by simp)).1
    have h2 := ih fun q hq => h q (by simp [hq])
    rw [encode_cons]
    simp only [List.length_append, be32, be16, List.length_cons, List.length_nil]
    omega

theorem encode_ne_nil (a : Addr) {ps : List Bytes} (h : ps ≠ []) : 0 < (encode a ps).length := by
  cases ps with
  | nil => exact absurd rfl h
  | cons p ps => rw [encode_cons]; simp [be32, be16]

theorem unpack_encode (a : Addr) (ha : a.ok) (p : Nat) : ∀ (ps : List Bytes) (fuel : Nat) (pid : Option Nat) (nr : Nat),
    ps ≠ [] → (∀ x ∈ ps, Whole x) → (encode a ps).length < fuel → (pid = none ∨ pid = some p) →
    unpack (.pid p) fuel (encode a ps) pid nr = (.done (some a) (nr + ps.length), ps.map fun x => (p, x)) := by
  intro ps
  induction ps with
  | nil => intro _ _ _ h; exact absurd rfl h
  | cons x xs ih =>
    intro fuel pid nr _ hw hf hpid
    cases fuel with
    | zero => omega
    | succ fuel =>
      have hx := hw x (by simp)
      have e1 : (encode a (x :: xs)).take 4 = be32 a.ip := by rw [encode_cons]; rfl
      have e2 : ((encode a (x :: xs)).drop 4).take 2 = be16 a.port := by rw [encode_cons]; rfl
      have e3 : ((encode a (x :: xs)).drop 6).take 2 = be16 (x.length / 4) := by rw [encode_cons]; rfl
      have e4 : (encode a (x :: xs)).drop 8 = x ++ encode a xs := by rw [encode_cons]; rfl
      have e5 : 4 * (x.length / 4) = x.length := by have := hx.1; omega
      have e6 : (encode a (x :: xs)).length = 8 + x.length + (encode a xs).length := by
        rw [encode_cons]; simp only [List.length_append, be32, be16, List.length_cons, List.length_nil]; omega
      simp only [unpack, e1, e2, e3, e4, ofBE_be32 ha.1, ofBE_be16 ha.2, ofBE_be16 hx.2, e5]
      rw [if_pos (by omega)]
      have hlook : dest (.pid p) pid = .pid p := by
        rcases hpid with rfl | rfl <;> rfl
      rw [hlook]
      simp only [List.take_left, List.drop_left]
      cases xs with
      | nil => simp [encode]
      | cons y ys =>
        have := encode_ne_nil a (ps := y :: ys) (by simp)
        rw [if_pos this, ih fuel (some p) (nr + 1) (by simp) (fun z hz => hw z (by simp [hz])) (by omega) (.inr rfl)]
        simp only [List.map_cons, List.length_cons]
        congr 2
        omega

/-! ## The state after some chunks and responses -/

/-- What is sent for some responses. -/
def frame (rs : List Resp) : Bytes := rs.flatMap Resp.bytes

/-- The responses `rs`, all from the target `a`, have been taken, and chunks of `ns` packets for it. -/
structure Inv (a : Addr) (ns : List Nat) (rs : List Resp) (s : TM) (g : List (List Resp)) (rem : List Nat) (pend : List Resp) :
    Prop where
  running : s.running = true
  crashed : s.crashed = false
  sizes : g.map (·.length) ++ rem = ns
  resps : g.flatten ++ pend = rs
  sent : s.sent = g.map frame
  q : s.q = rem
  acc : s.acc = frame pend
  nrAcc : s.nrAcc = pend.length
  head : ∀ n ∈ rem.head?, pend.length < n
  pendNil : rem = [] → pend = []
  pos : ∀ n ∈ ns, 0 < n
  target : ns ≠ [] → s.target = some a

theorem Inv.init (a : Addr) : Inv a [] [] TM.init [] [] [] := by
  constructor <;> simp [TM.init, frame]

theorem Inv.chunk {a : Addr} (ha : a.ok) {ns : List Nat} {rs : List Resp} {s : TM} {g : List (List Resp)} {rem : List Nat}
    {pend : List Resp} (h : Inv a ns rs s g rem pend) {ps : List Bytes} (hne : ps ≠ []) (hw : ∀ x ∈ ps, Whole x) (p : Nat) :
    Inv a (ns ++ [ps.length]) rs (s.step (.chunk (encode a ps) (.pid p))) g (rem ++ [ps.length]) pend ∧
    (s.step (.chunk (encode a ps) (.pid p))).casts = s.casts ++ ps.map fun x => (p, x) := by
  have hlen : 0 < ps.length := List.length_pos_iff.mpr hne
  simp only [TM.step, h.running, if_true, TM.chunk]
  rw [if_pos (encode_length_mod a ps hw), unpack_encode a ha p ps _ none 0 hne hw (by omega) (.inl rfl)]
  simp only [Nat.zero_add]
  refine ⟨?_, trivial⟩
  constructor
  · rfl
  · exact h.crashed
  · rw [← List.append_assoc, h.sizes]
  · exact h.resps
  · exact h.sent
  · simp [h.q]
  · exact h.acc
  · exact h.nrAcc
  · intro n hn
    cases hr : rem with
    | nil => rw [hr] at hn; simp at hn; subst hn; rw [h.pendNil hr]; simpa using hlen
    | cons m ms => rw [hr] at hn; exact h.head n (by rw [hr]; simpa using hn)
  · simp
  · intro n hn
    rcases List.mem_append.mp hn with hn | hn
    · exact h.pos n hn
    · simp at hn; omega
  · intro _; rfl

theorem Inv.response {a : Addr} {ns : List Nat} {rs : List Resp} {s : TM} {g : List (List Resp)} {rem : List Nat}
    {pend : List Resp} (h : Inv a ns rs s g rem pend) {r : Resp} (hr : r.addr = a) (hlt : rs.length < ns.sum) :
    (s.step (.response r)).casts = s.casts ∧ ∃ g' rem' pend', Inv a ns (rs ++ [r]) (s.step (.response r)) g' rem' pend' := by
  cases hrem : rem with
  | nil =>
    exfalso
    have h1 := h.pendNil hrem
    have h2 := h.sizes
    have h3 := h.resps
    rw [hrem] at h2; rw [h1] at h3
    simp only [List.append_nil] at h2 h3
    rw [← h3, ← h2, List.length_flatten] at hlt
    simp at hlt
  | cons n rem' =>
    have hns : ns ≠ [] := by rw [← h.sizes, hrem]; simp
    have hhead := h.head n (by rw [hrem]; rfl)
    simp only [TM.step, h.running, if_true, TM.response]
    rw [if_pos (by rw [h.target hns, hr])]
    simp only [h.q, hrem]
    by_cases hn : s.nrAcc + 1 = n
    · rw [if_pos hn]
      refine ⟨rfl, g ++ [pend ++ [r]], rem', [], ?_⟩
      constructor
      · rfl
      · exact h.crashed
      · rw [← h.sizes, hrem]; simp [← hn, h.nrAcc]
      · rw [← h.resps]; simp
      · simp [h.sent, h.acc, frame]
      · rfl
      · rfl
      · rfl
      · intro m hm
        have : m ∈ rem' := List.mem_of_mem_head? hm
        simpa using h.pos m (by rw [← h.sizes, hrem]; simp [this])
      · intro _; rfl
      · exact h.pos
      · intro _; exact h.target hns
    · rw [if_neg hn]
      refine ⟨rfl, g, n :: rem', pend ++ [r], ?_⟩
      constructor
      · rfl
      · exact h.crashed
      · rw [← h.sizes, hrem]
      · rw [← h.resps]; simp
      · exact h.sent
      · simp [h.q, hrem]
      · simp [h.acc, frame]
      · simp [h.nrAcc]
      · intro m hm
        simp at hm; subst hm
        have := h.nrAcc
        simp; omega
      · simp
      · exact h.pos
      · intro _; exact h.target hns

/-! ## The messages of the device client, in order -/

section
variable {σ : Type} {exec : σ → Bytes → σ × Bytes}
open Verif.Hub (Sys Msg Flight)

/-- Messages that are not about an invalid packet. -/
def answered (out : List Msg) : List Msg := out.filter fun m => decide (m.code ≠ 6)

/-- The messages so far: replies, then (once the process has stopped) errors, in the order of the requests. -/
structure Told (s : Sys σ) : Prop where
  pids : (answered s.hub.out).map (·.pid) ++ s.hub.waiting = s.accepted.map (·.pid)
  live : s.hub.mode ≠ .stopped → ∀ m ∈ s.hub.out, m.code = 0 ∨ m.code = 6
  parts : ∃ z e, answered s.hub.out = z ++ e ∧ (∀ m ∈ z, m.code = 0) ∧
    ∀ m ∈ e, (m.code = 1 ∨ m.code = 3 ∨ m.code = 4 ∨ m.code = 5) ∧ m.pkt = []
  nr : s.hub.nr = s.hub.q.length

theorem answered_append (l m : List Msg) : answered (l ++ m) = answered l ++ answered m := List.filter_append ..

theorem Told.start (t0 : Hub.Tgt σ) (absMax : Nat) : Told (Hub.start t0 absMax) where
  pids := rfl
  live := by intro _ m hm; simp [Hub.start] at hm
  parts := ⟨[], [], rfl, by simp, by simp⟩
  nr := rfl

/-- Nothing but the mode changes, and the process goes on. -/
theorem Told.mode {s s' : Sys σ} (h : Told s) (hs : s.hub.mode ≠ .stopped) (ho : s'.hub.out = s.hub.out) (hq : s'.hub.q = s.hub.q)
    (hn : s'.hub.nr = s.hub.nr) (ha : s'.accepted = s.accepted) (hm : s'.hub.mode ≠ .stopped) : Told s' where
  pids := by
    have := h.pids
    simp only [Hub.Hub.waiting, hs, hm, if_false] at this ⊢
    rw [ho, hq, ha, this]
  live := by rw [ho]; intro _; exact h.live hs
  parts := by rw [ho]; exact h.parts
  nr := by rw [hn, hq, h.nr]

/-- The process gives up. -/
theorem Told.giveUp {s s' : Sys σ} (h : Told s) (hs : s.hub.mode ≠ .stopped) {code : Nat}
    (hc : code = 1 ∨ code = 3 ∨ code = 4 ∨ code = 5) (hh : s'.hub = s.hub.giveUp code) (ha : s'.accepted = s.accepted) : Told s' := by
  have h6 : code ≠ 6 := by omega
  have hout : answered s'.hub.out = answered s.hub.out ++ s.hub.q.map fun f => ⟨f.pid, code, []⟩ := by
    rw [hh]
    simp only [Hub.Hub.giveUp, answered_append]
    congr 1
    simp only [answered, List.filter_eq_self]
    intro m hm
    obtain ⟨f, _, rfl⟩ := List.mem_map.mp hm
    simpa using h6
  refine ⟨?_, ?_, ?_, ?_⟩
  · have := h.pids
    simp only [Hub.Hub.waiting, hs, if_false] at this
    rw [hout, ha, ← this, hh]
    simp [Hub.Hub.giveUp, Hub.Hub.waiting, Function.comp_def]
  · intro hm; rw [hh] at hm; exact absurd rfl hm
  · refine ⟨answered s.hub.out, _, hout, ?_, ?_⟩
    · intro m hm
      have h1 := List.mem_filter.mp hm
      rcases h.live hs m h1.1 with h2 | h2
      · exact h2
      · simp [h2] at h1
    · intro m hm
      obtain ⟨f, _, rfl⟩ := List.mem_map.mp hm
      exact ⟨hc, rfl⟩
  · rw [hh]; exact h.nr

theorem Told.forward {s s' : Sys σ} {hub : Hub.Hub} (h : Told s) (hs : s.hub.mode ≠ .stopped) (ho : hub.out = s.hub.out)
    (hq : hub.q = s.hub.q) (hn : hub.nr = s.hub.nr) (hm : hub.mode = .normal) (p : Bytes) (hh : s'.hub = hub.forward p)
    (ha : s'.accepted = s.accepted) : Told s' := by
  cases hq' : hub.q with
  | nil =>
    rw [Hub.forward_nil hq'] at hh
    exact h.mode hs (by rw [hh, ho]) (by rw [hh, hq]) (by rw [hh, hn]) ha (by rw [hh, hm]; simp)
  | cons f q' =>
    rw [Hub.forward_cons hq'] at hh
    split at hh
    · exact h.mode hs (by rw [hh, ho]) (by rw [hh]; exact hq) (by rw [hh, hn]) ha (by rw [hh]; simp)
    · split at hh
      · have hsq : s.hub.q = f :: q' := by rw [← hq, hq']
        have hz : ∀ m ∈ answered s.hub.out, m.code = 0 := by
          intro m hm
          have h1 := List.mem_filter.mp hm
          rcases h.live hs m h1.1 with h2 | h2
          · exact h2
          · simp [h2] at h1
        refine ⟨?_, ?_, ?_, ?_⟩
        · have := h.pids
          simp only [Hub.Hub.waiting, hs, if_false, hsq] at this
          rw [ha, ← this, hh]
          simp [Hub.Hub.waiting, hm, ho, answered_append, answered]
        · intro _ m hmm
          rw [hh] at hmm
          simp only [ho, List.mem_append, List.mem_singleton] at hmm
          rcases hmm with hmm | rfl
          · exact h.live hs m hmm
          · exact .inl rfl
        · refine ⟨answered s.hub.out ++ [⟨f.pid, 0, f.orig ++ p.drop 4⟩], [], ?_, ?_, by simp⟩
          · rw [hh]; simp [ho, answered_append, answered]
          · intro m hmm
            rcases List.mem_append.mp hmm with hmm | hmm
            · exact hz m hmm
            · simp at hmm; rw [hmm]
        · rw [hh]
          have := h.nr
          rw [hsq] at this
          simp [hn, this]
      · exact h.mode hs (by rw [hh, ho]) (by rw [hh, hq]) (by rw [hh, hn]) ha (by rw [hh, hm]; simp)

theorem Told.step {s s' : Sys σ} (h : Told s) {ev : Hub.Ev} (hs : s.step exec ev = some s') : Told s' := by
  cases ev with
  | request pkt pid =>
    simp only [Sys.step] at hs
    split at hs
    · rename_i hc
      simp only [Option.some.injEq] at hs
      have hst : s.hub.mode ≠ .stopped := by rw [hc.1]; simp
      have hz := h.live hst
      have hp := h.pids
      simp only [Hub.Hub.waiting, hst, if_false] at hp
      cases hpc : Hub.parseControl pkt with
      | v2 en =>
        simp only [Hub.Hub.sendRequest, hpc] at hs
        subst hs
        refine ⟨?_, fun _ => hz, h.parts, ?_⟩
        · simp only [Hub.Hub.waiting, hst, if_false, List.map_append, ← List.append_assoc, hp, List.drop_left]
        · simp [h.nr]
      | v1 en =>
        simp only [Hub.Hub.sendRequest, hpc] at hs
        subst hs
        refine ⟨?_, ?_, ?_, h.nr⟩
        · simp only [Hub.Hub.waiting, hst, if_false, List.drop_length, List.append_nil]
          rw [← hp]; simp [answered_append, answered]
        · intro _ m hm
          rcases List.mem_append.mp hm with hm | hm
          · exact hz m hm
          · simp at hm; subst hm; exact .inr rfl
        · have : answered (s.hub.out ++ [⟨pid, 6, []⟩]) = answered s.hub.out := by simp [answered_append, answered]
          simp only [this]; exact h.parts
      | invalid =>
        simp only [Hub.Hub.sendRequest, hpc] at hs
        subst hs
        refine ⟨?_, ?_, ?_, h.nr⟩
        · simp only [Hub.Hub.waiting, hst, if_false, List.drop_length, List.append_nil]
          rw [← hp]; simp [answered_append, answered]
        · intro _ m hm
          rcases List.mem_append.mp hm with hm | hm
          · exact hz m hm
          · simp at hm; subst hm; exact .inr rfl
        · have : answered (s.hub.out ++ [⟨pid, 6, []⟩]) = answered s.hub.out := by simp [answered_append, answered]
          simp only [this]; exact h.parts
    · cases hs
  | toTarget i junk =>
    simp only [Sys.step] at hs
    cases hd : s.toT[i]? with
    | none => simp [hd] at hs
    | some d =>
      simp only [hd] at hs
      split at hs
      · simp only [Option.some.injEq] at hs; subst hs; exact ⟨h.pids, h.live, h.parts, h.nr⟩
      · cases hs
  | toHub i =>
    simp only [Sys.step] at hs
    cases hd : s.toH[i]? with
    | none => simp [hd] at hs
    | some d =>
      simp only [hd] at hs
      split at hs
      · rename_i htk
        simp only [Option.some.injEq] at hs
        cases hm : s.hub.mode with
        | normal =>
          simp only [Hub.Hub.recv, hm] at hs
          subst hs
          exact h.forward (by rw [hm]; simp) rfl rfl rfl hm d.2 rfl rfl
        | resent n lost =>
          simp only [Hub.Hub.recv, hm] at hs
          subst hs
          exact h.forward (hub := { s.hub with mode := .normal }) (by rw [hm]; simp) rfl rfl rfl rfl d.2 rfl rfl
        | status n left =>
          have hst : s.hub.mode ≠ .stopped := by rw [hm]; simp
          simp only [Hub.Hub.recv, hm] at hs
          subst hs
          split
          · exact h.mode hst rfl rfl rfl rfl (by simp)
          · split
            · exact h.mode hst rfl rfl rfl rfl (by simp)
            · exact h.giveUp hst (code := 5) (by simp) rfl rfl
            · split
              · exact h.mode hst rfl rfl rfl rfl (by simp)
              · split <;> exact h.mode hst rfl rfl rfl rfl (by simp)
        | stopped => simp [Hub.Hub.takes, hm] at htk
        | crashed => simp [Hub.Hub.takes, hm] at htk
      · cases hs
  | timeout =>
    simp only [Sys.step] at hs
    split at hs
    · cases hs
    rename_i hnot
    simp only [Option.some.injEq] at hs
    cases hm : s.hub.mode with
    | normal =>
      have hst : s.hub.mode ≠ .stopped := by rw [hm]; simp
      simp only [Hub.Hub.timeout, hm] at hs
      subst hs
      split
      · exact h.mode hst rfl rfl rfl rfl (by simp)
      · rename_i hc
        have hn := h.nr
        have hq : s.hub.q = [] := List.length_eq_zero_iff.mp (by omega)
        refine ⟨?_, by simp, h.parts, h.nr⟩
        have := h.pids
        simpa [Hub.Hub.waiting, hst, hq] using this
    | status n left =>
      have hst : s.hub.mode ≠ .stopped := by rw [hm]; simp
      simp only [Hub.Hub.timeout, hm] at hs
      subst hs
      split
      · exact h.giveUp hst (code := 3) (by simp) rfl rfl
      · exact h.mode hst rfl rfl rfl rfl (by simp)
    | resent n lost =>
      have hst : s.hub.mode ≠ .stopped := by rw [hm]; simp
      simp only [Hub.Hub.timeout, hm] at hs
      subst hs
      split
      · exact h.giveUp hst (code := if lost then 1 else 4) (by cases lost <;> simp) rfl rfl
      · exact h.mode hst rfl rfl rfl rfl (by simp)
    | stopped => exact absurd (.inl hm) hnot
    | crashed => exact absurd (.inr hm) hnot

theorem Told.run (es : List Hub.Ev) : ∀ (s s' : Sys σ), Told s → s.run exec es = some s' → Told s' := by
  induction es with
  | nil => intro s s' h hr; simp only [Sys.run, Option.some.injEq] at hr; subst hr; exact h
  | cons e es ih =>
    intro s s' h hr
    simp only [Sys.run] at hr
    cases hs : s.step exec e with
    | none => simp [hs] at hr
    | some s1 => simp only [hs] at hr; exact ih s1 s' (h.step hs) hr

end

end Verif.TraMgr
