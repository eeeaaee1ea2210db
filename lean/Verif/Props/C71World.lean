import Verif.Props.C71
import Verif.Props.C42
/-!
# C71: the ControlHub and the dummy hardware

The device client of `Verif/Model/Hub.lean` with the model of the dummy hardware instead of the target there: what C42 says holds for it.
-/

set_option autoImplicit false
set_option linter.unusedSimpArgs false

namespace Verif.Dummy
open Verif.Insp
open Verif.Hub (Bytes Tgt Hub Flight Sys headerId pktHeader parseControl resendPkt statusReq)
open Spec

/-- Device client, dummy hardware (`none`: it has ended, or what it does is undefined) and all datagrams ever sent, as in `Hub.Sys`. -/
structure DSys where
  hub : Hub
  dev : Option DH
  toT : List (Nat × Bytes)
  toH : List (Nat × Bytes)
  accepted : List Flight

/-- Steps. -/
inductive DEv
  | request (pkt : Bytes) (pid : Nat)
  | toTarget (i : Nat)
  | toHub (i : Nat)
  | timeout

/-- One step, as `Hub.Sys.step`. -/
def DSys.step (s : DSys) : DEv → Option DSys
  | .request pkt pid =>
    if s.hub.mode = .normal ∧ s.hub.nr < s.hub.maxFl then
      let r := s.hub.sendRequest pkt pid
      let acc := s.accepted ++ r.1.q.drop s.hub.q.length
      some { s with hub := r.1, accepted := acc, toT := s.toT ++ r.2.map fun b => (acc.length, b) }
    else none
  | .toTarget i => match s.toT[i]? with
    | none => none
    | some x => match s.dev with
      | none => none
      | some d => match d.udp .v2 x.2 with
        | .ok d' a => some { s with dev := some d', toH := s.toH ++ a.toList.map fun b => (s.accepted.length, b) }
        | _ => some { s with dev := none }
  | .toHub i => match s.toH[i]? with
    | none => none
    | some x =>
      if s.hub.takes x.2 then
        let r := s.hub.recv x.2
        some { s with hub := r.1, toT := s.toT ++ r.2.map fun b => (s.accepted.length, b) }
      else none
  | .timeout =>
    if s.hub.mode = .stopped ∨ s.hub.mode = .crashed then none
    else
      let r := s.hub.timeout
      some { s with hub := r.1, toT := s.toT ++ r.2.map fun b => (s.accepted.length, b) }

/-- A sequence of steps. -/
def DSys.run (s : DSys) : List DEv → Option DSys
  | [] => some s
  | e :: es => match s.step e with
    | some s' => s'.run es
    | none => none

/-- The dummy hardware has just been started, and the device client has learnt its state. -/
def DSys.start (pid : BitVec 16) (big : Bool) (absMax : Nat) : DSys where
  hub := ⟨.normal, 1, 0, [], min 5 absMax, []⟩
  dev := some (DH.init pid big)
  toT := []
  toH := []
  accepted := []

/-- As `Hub.Prompt`: no datagram is delivered after more than `L` packets have been accepted since it was sent. -/
def DPrompt (L : Nat) (s : DSys) : List DEv → Prop
  | [] => True
  | e :: es =>
    (match e with
      | .toTarget i => ∀ x, s.toT[i]? = some x → s.accepted.length ≤ x.1 + L
      | .toHub i => ∀ x, s.toH[i]? = some x → s.accepted.length ≤ x.1 + L
      | _ => True) ∧ ∀ s', s.step e = some s' → DPrompt L s' es

/-- The requests among the steps, with their senders. -/
def dRequests : List DEv → List (Bytes × Nat)
  | [] => []
  | .request pkt pid :: es => (pkt, pid) :: dRequests es
  | _ :: es => dRequests es

/-- A request of a client: a packet of at least one transaction in the byte order of the target, with any packet ID. -/
def Request (big : Bool) (pkt : Bytes) (txns : List (Nat × Txn)) : Prop :=
  ∃ ws pid, pkt = octets big ws ∧ parsePacket .v2 ws = some (pid, txns) ∧ txns ≠ [] ∧ ∀ x ∈ txns, ∀ a n, x.2 = .cfgRead a n → a.toNat + n ≤ 10

/-- The memory after some packets. -/
def memAfter (tg : Target (W → W)) (m : W → W) : List (List (Nat × Txn)) → W → W
  | [] => m
  | l :: ls => memAfter tg (execTxns .v2 tg (l.map Prod.snd) m).2 ls

/-! ## Proofs -/

/-- The packet with a new ID. -/
theorem request_parts {big : Bool} {pkt : Bytes} {txns : List (Nat × Txn)} (h : Request big pkt txns) :
    ∃ e, parseControl pkt = .v2 e ∧ (∀ n, 1 ≤ n → n ≤ 65535 → FromHost big (pktHeader n e ++ pkt.drop 4)) ∧
      ∀ (tg : Target (W → W)) (m : W → W), ∃ body, execIn big tg m (pkt.drop 4) = ((execTxns .v2 tg (txns.map Prod.snd) m).2, octets big body) ∧
        ReplyBody .v2 txns (execTxns .v2 tg (txns.map Prod.snd) m).1 body := by
  obtain ⟨ws, pid, rfl, h1, h2, h3⟩ := h
  cases ws with
  | nil => cases h1
  | cons p w =>
    have hp' := h1
    simp only [parsePacket] at hp'
    split at hp'
    · rename_i hh
      obtain ⟨hn, hlt⟩ := ctl_toNat hh
      simp only [Option.map_eq_some_iff, Prod.mk.injEq] at hp'
      obtain ⟨l, hl, hpid, rfl⟩ := hp'
      obtain ⟨b1, b2⟩ := ctl_bytes hn hlt
      have hsplit : ∀ q, octets big (q :: w) = leBytes (if big then htonl q else q) ++ toBytes big w := by
        intro q
        rw [octets_toBytes]
        cases big <;> rfl
      have hdrop : (octets big (p :: w)).drop 4 = toBytes big w := by rw [hsplit]; exact List.drop_left' rfl
      rw [hdrop]
      refine ⟨if big then .big else .little, ?_, ?_, ?_⟩
      · rw [hsplit]
        cases big with
        | true => simp only [if_true, b2]; simp [parseControl]
        | false => simp only [Bool.false_eq_true, if_false, b1]; simp [parseControl]
      · intro n n1 n2
        have hq : (BitVec.ofNat 32 (0x200000f0 + 256 * n)).toNat = 0x200000f0 + 256 * n := by rw [BitVec.toNat_ofNat]; omega
        generalize BitVec.ofNat 32 (0x200000f0 + 256 * n) = q at hq
        obtain ⟨c1, c2⟩ := ctl_bytes hq (by omega)
        have e : pktHeader n (if big then .big else .little) ++ toBytes big w = octets big (q :: w) := by
          rw [hsplit]
          cases big with
          | true => simp only [if_true, c2, pktHeader]
          | false => simp only [Bool.false_eq_true, if_false, c1, pktHeader]
        rw [e]
        refine .control (q :: w) n l ?_ h2 h3
        simp only [parsePacket]
        have hf : field q 28 4 = 2 ∧ field q 24 4 = 0 ∧ field q 4 4 = 15 ∧ field q 0 4 = 0 ∧ field q 8 16 = n := by
          simp only [field, hq]; omega
        rw [if_pos ⟨hf.1, hf.2.1, hf.2.2.1, hf.2.2.2.1⟩, hl, hf.2.2.2.2]
        rfl
      · intro tg m
        have hws : w ≠ [] := by rintro rfl; exact h2 (parseTxns_nil hl)
        obtain ⟨body, d1, d2⟩ := analyzeLoop_ok .v2 tg _ w.length w l m [] hl hws (Nat.le_refl _)
        refine ⟨body, ?_, d2⟩
        simp only [execIn, unBytes_toBytes, d1, List.nil_append, octets_toBytes]
    · cases hp'

/-- What is in the network and in the queue of the device client. -/
structure RS (big : Bool) (cfg : List W) (s : DSys) (t : Sys (W → W)) : Prop where
  hub : s.hub = t.hub
  toT : s.toT = t.toT
  toH : s.toH = t.toH
  acc : s.accepted = t.accepted
  dev : ∃ d, s.dev = some d ∧ Rel big cfg d t.tgt
  wire : ∀ x ∈ s.toT, FromHost big x.2
  next : 1 ≤ s.hub.next ∧ s.hub.next ≤ 65535
  q : ∀ f ∈ s.hub.q, FromHost big f.sent ∧ FromHost big (resendPkt f.hdr)

theorem incId_range {n : Nat} (h : 1 ≤ n ∧ n ≤ 65535) : 1 ≤ Hub.incId n ∧ Hub.incId n ≤ 65535 := by
  unfold Hub.incId; split <;> omega

theorem resend_ok (big : Bool) {n : Nat} (h1 : 1 ≤ n) (h2 : n ≤ 65535) (e : Hub.Endness) : FromHost big (resendPkt (pktHeader n e)) := by
  have : resendPkt (pktHeader n e) = 0x20 :: (n / 256) :: (n % 256) :: 0xf2 :: [] := by
    cases e <;> simp [resendPkt, pktHeader]
  rw [this]
  exact .resend _ _ _ (by omega) (by omega) (by omega)

theorem forward_q (h : Hub) (pkt : Bytes) : (h.forward pkt).next = h.next ∧ ∀ f ∈ (h.forward pkt).q, f ∈ h.q := by
  unfold Hub.Hub.forward
  split
  · exact ⟨rfl, fun f hf => hf⟩
  · rename_i f q' hq
    split
    · exact ⟨rfl, fun f hf => hf⟩
    · split
      · exact ⟨rfl, fun g hg => by rw [hq]; exact List.mem_cons_of_mem _ hg⟩
      · exact ⟨rfl, fun f hf => hf⟩

theorem recv_sends {big : Bool} {h : Hub} (hq : ∀ f ∈ h.q, FromHost big f.sent ∧ FromHost big (resendPkt f.hdr)) (pkt : Bytes) :
    (h.recv pkt).1.next = h.next ∧ (∀ f ∈ (h.recv pkt).1.q, f ∈ h.q) ∧ ∀ b ∈ (h.recv pkt).2, FromHost big b := by
  unfold Hub.Hub.recv
  split
  · exact ⟨(forward_q _ _).1, (forward_q _ _).2, by simp⟩
  · split
    · exact ⟨rfl, fun f hf => hf, by simp⟩
    · split
      · exact ⟨rfl, fun f hf => hf, by simp⟩
      · exact ⟨rfl, fun f hf => hf, by simp⟩
      · split
        · exact ⟨rfl, fun f hf => hf, by simp⟩
        · split
          · refine ⟨rfl, fun f hf => hf, ?_⟩
            intro b hb
            obtain ⟨f, hf, rfl⟩ := List.mem_map.1 hb
            exact (hq f hf).1
          · refine ⟨rfl, fun f hf => hf, ?_⟩
            intro b hb
            obtain ⟨f, hf, rfl⟩ := List.mem_map.1 hb
            exact (hq f hf).2
  · exact ⟨(forward_q _ _).1, (forward_q _ _).2, by simp⟩
  · exact ⟨rfl, fun f hf => hf, by simp⟩
  · exact ⟨rfl, fun f hf => hf, by simp⟩

theorem timeout_sends (big : Bool) (h : Hub) : h.timeout.1.next = h.next ∧ h.timeout.1.q = h.q ∧ ∀ b ∈ h.timeout.2, FromHost big b := by
  have hs : ∀ b ∈ [statusReq], FromHost big b := by
    intro b hb
    rw [List.mem_singleton.1 hb]
    exact .status _
  unfold Hub.Hub.timeout
  repeat' split
  all_goals first
    | exact ⟨rfl, rfl, hs⟩
    | exact ⟨rfl, rfl, by simp⟩

/-- What the steps of `Hub.Sys` are that correspond to one of `DSys`. -/
def DEv.matches : DEv → Hub.Ev → Prop
  | .request pkt pid, e => e = .request pkt pid
  | .toTarget i, e => ∃ junk, e = .toTarget i junk
  | .toHub i, e => e = .toHub i
  | .timeout, e => e = .timeout

theorem step_rel {big : Bool} {cfg : List W} (hcfg : cfg.length = 10) {s s' : DSys} {t : Sys (W → W)} (h : RS big cfg s t) {e : DEv}
    (he : ∀ pkt pid, e = .request pkt pid → ∃ txns, Request big pkt txns) (hs : s.step e = some s') :
    ∃ (e' : Hub.Ev) (t' : Sys (W → W)), DEv.matches e e' ∧ t.step (execIn big (tgOf cfg)) e' = some t' ∧ RS big cfg s' t' := by
  cases e with
  | request pkt pid =>
    simp only [DSys.step] at hs
    split at hs
    · rename_i hc
      simp only [Option.some.injEq] at hs
      refine ⟨.request pkt pid, { t with
        hub := (s.hub.sendRequest pkt pid).1
        accepted := t.accepted ++ (s.hub.sendRequest pkt pid).1.q.drop s.hub.q.length
        toT := t.toT ++ (s.hub.sendRequest pkt pid).2.map fun b => ((t.accepted ++ (s.hub.sendRequest pkt pid).1.q.drop s.hub.q.length).length, b) }, rfl, ?_, ?_⟩
      · simp only [Sys.step, ← h.hub, if_pos hc]
      · obtain ⟨txns, ht⟩ := he pkt pid rfl
        obtain ⟨en, c1, c2, _⟩ := request_parts ht
        subst hs
        simp only [Hub.Hub.sendRequest, c1]
        have hF := c2 s.hub.next h.next.1 h.next.2
        constructor
        · rfl
        · simp only [h.toT, h.acc]
        · exact h.toH
        · simp only [h.acc]
        · exact h.dev
        · intro x hx
          simp only [List.map_cons, List.map_nil, List.mem_append, List.mem_singleton] at hx
          rcases hx with hx | rfl
          · exact h.wire x hx
          · exact hF
        · exact incId_range h.next
        · intro f hf
          simp only [List.mem_append, List.mem_singleton] at hf
          rcases hf with hf | rfl
          · exact h.q f hf
          · exact ⟨hF, resend_ok big h.next.1 h.next.2 en⟩
    · cases hs
  | toTarget i =>
    simp only [DSys.step] at hs
    cases hx : s.toT[i]? with
    | none => rw [hx] at hs; cases hs
    | some x =>
      rw [hx] at hs
      obtain ⟨d, hd, hr⟩ := h.dev
      simp only [hd] at hs
      obtain ⟨d', a, u1, u2, u3⟩ := sim hr hcfg (h.wire x (List.mem_of_getElem? hx))
      simp only [u1, Option.some.injEq] at hs
      subst hs
      refine ⟨.toTarget i d.junk, { t with
        tgt := (t.tgt.recv (execIn big (tgOf cfg)) x.2 d.junk).1
        toH := t.toH ++ (t.tgt.recv (execIn big (tgOf cfg)) x.2 d.junk).2.map fun b => (t.accepted.length, b) }, ⟨_, rfl⟩, ?_, ?_⟩
      · have : t.toT[i]? = some x := by rw [← h.toT]; exact hx
        simp only [Sys.step, this, junk_length hr, if_true]
      · exact {
          hub := h.hub
          toT := h.toT
          toH := by simp only [u2, h.toH, h.acc]
          acc := h.acc
          dev := ⟨d', rfl, u3⟩
          wire := h.wire
          next := h.next
          q := h.q }
  | toHub i =>
    simp only [DSys.step] at hs
    cases hx : s.toH[i]? with
    | none => rw [hx] at hs; cases hs
    | some x =>
      rw [hx] at hs
      simp only at hs
      split at hs
      · rename_i hk
        simp only [Option.some.injEq] at hs
        subst hs
        obtain ⟨r1, r2, r3⟩ := recv_sends h.q x.2
        refine ⟨.toHub i, { t with
          hub := (t.hub.recv x.2).1
          toT := t.toT ++ (t.hub.recv x.2).2.map fun b => (t.accepted.length, b) }, rfl, ?_, ?_⟩
        · have : t.toH[i]? = some x := by rw [← h.toH]; exact hx
          rw [h.hub] at hk
          simp only [Sys.step, this, hk, if_true]
        · exact {
            hub := by simp only [h.hub]
            toT := by simp only [h.toT, h.acc, h.hub]
            toH := h.toH
            acc := h.acc
            dev := h.dev
            wire := by
              intro y hy
              simp only [List.mem_append, List.mem_map] at hy
              rcases hy with hy | ⟨b, hb, rfl⟩
              · exact h.wire y hy
              · exact r3 b hb
            next := by simp only [r1]; exact h.next
            q := fun f hf => h.q f (r2 f hf) }
      · cases hs
  | timeout =>
    simp only [DSys.step] at hs
    split at hs
    · cases hs
    · rename_i hk
      simp only [Option.some.injEq] at hs
      subst hs
      obtain ⟨r1, r2, r3⟩ := timeout_sends big s.hub
      refine ⟨.timeout, { t with
        hub := t.hub.timeout.1
        toT := t.toT ++ t.hub.timeout.2.map fun b => (t.accepted.length, b) }, rfl, ?_, ?_⟩
      · rw [h.hub] at hk
        simp only [Sys.step, hk, if_false]
      · exact {
          hub := by simp only [h.hub]
          toT := by simp only [h.toT, h.acc, h.hub]
          toH := h.toH
          acc := h.acc
          dev := h.dev
          wire := by
            intro y hy
            simp only [List.mem_append, List.mem_map] at hy
            rcases hy with hy | ⟨b, hb, rfl⟩
            · exact h.wire y hy
            · exact r3 b hb
          next := by simp only [r1]; exact h.next
          q := fun f hf => h.q f (by simpa only [r2] using hf) }

theorem run_rel {big : Bool} {cfg : List W} (hcfg : cfg.length = 10) {L : Nat} (es : List DEv) (s s' : DSys) (t : Sys (W → W)) (h : RS big cfg s t)
    (he : ∀ r ∈ dRequests es, ∃ txns, Request big r.1 txns) (hp : DPrompt L s es) (hs : s.run es = some s') :
    ∃ es' t', t.run (execIn big (tgOf cfg)) es' = some t' ∧ Hub.Prompt (execIn big (tgOf cfg)) L t es' = true ∧ Hub.controlRequests es' = dRequests es ∧
      RS big cfg s' t' := by
  induction es generalizing s t with
  | nil =>
    simp only [DSys.run, Option.some.injEq] at hs
    subst hs
    exact ⟨[], t, rfl, rfl, rfl, h⟩
  | cons e es ih =>
    simp only [DSys.run] at hs
    cases hs1 : s.step e with
    | none => rw [hs1] at hs; cases hs
    | some s1 =>
      rw [hs1] at hs
      obtain ⟨e', t1, m1, m2, m3⟩ := step_rel hcfg h (by
        rintro pkt pid rfl
        exact he (pkt, pid) (by simp [dRequests])) hs1
      obtain ⟨p1, p2⟩ := hp
      obtain ⟨es', t', i1, i2, i3, i4⟩ := ih s1 t1 m3 (by
        intro r hr
        apply he r
        cases e <;> simp [dRequests, hr]) (p2 s1 hs1) hs
      refine ⟨e' :: es', t', ?_, ?_, ?_, i4⟩
      · simp only [Sys.run, m2, i1]
      · simp only [Hub.Prompt, m2, i2, Bool.and_true]
        cases e with
        | request pkt pid => cases m1; rfl
        | toTarget i =>
          obtain ⟨junk, rfl⟩ := m1
          simp only [Hub.Fresh, ← h.toT, ← h.acc]
          cases hx : s.toT[i]? with
          | none => rfl
          | some x => simpa using p1 x hx
        | toHub i =>
          cases m1
          simp only [Hub.Fresh, ← h.toH, ← h.acc]
          cases hx : s.toH[i]? with
          | none => rfl
          | some x => simpa using p1 x hx
        | timeout => cases m1; rfl
      · cases e with
        | request pkt pid =>
          cases m1
          obtain ⟨txns, ht⟩ := he (pkt, pid) (by simp [dRequests])
          obtain ⟨en, c1, _⟩ := request_parts ht
          have : Hub.isControl pkt = true := (Hub.parseControl_v2 pkt).1 ⟨en, c1⟩
          simp only [Hub.controlRequests, this, if_true, dRequests, i3]
        | toTarget i => obtain ⟨junk, rfl⟩ := m1; simp only [Hub.controlRequests, dRequests, i3]
        | toHub i => cases m1; simp only [Hub.controlRequests, dRequests, i3]
        | timeout => cases m1; simp only [Hub.controlRequests, dRequests, i3]

theorem final_mem {big : Bool} (tg : Target (W → W)) (m : W → W) (rs : List (Bytes × Nat)) (ls : List (List (Nat × Txn)))
    (h : All2 (fun r l => Request big r.1 l) rs ls) : Hub.final (execIn big tg) m (rs.map Hub.bodyOf) = memAfter tg m ls := by
  induction h generalizing m with
  | nil => rfl
  | cons h1 _ ih =>
    obtain ⟨_, _, _, h4⟩ := request_parts h1
    obtain ⟨body, b1, _⟩ := h4 tg m
    simp only [List.map_cons, Hub.final, memAfter, Hub.bodyOf, b1]
    exact ih _

theorem All2.take {α β : Type} {R : α → β → Prop} {as : List α} {bs : List β} (h : All2 R as bs) (n : Nat) : All2 R (as.take n) (bs.take n) := by
  induction h generalizing n with
  | nil => simp; exact .nil
  | cons h1 _ ih =>
    cases n with
    | zero => simp; exact .nil
    | succ n => exact .cons h1 (ih n)

theorem All2.get {α β : Type} {R : α → β → Prop} {as : List α} {bs : List β} (h : All2 R as bs) {n : Nat} {a : α} (ha : as[n]? = some a) :
    ∃ b, bs[n]? = some b ∧ R a b := by
  induction h generalizing n with
  | nil => simp at ha
  | cons h1 _ ih =>
    cases n with
    | zero => simp at ha; subst ha; exact ⟨_, rfl, h1⟩
    | succ n => exact ih (by simpa using ha)

/-- **C71, behind a ControlHub.** Clients send well-formed requests; the network between the ControlHub and the dummy hardware loses, repeats, delays and reorders
datagrams. The dummy hardware survives and has executed an initial part of the requests, each once and in order; the `k`-th reply that is forwarded is that to the `k`-th request: its header
and the values of its transactions after those of the requests before. `_partial`: late datagrams, as for C42; one device client. -/
theorem C71_hub_partial (pid : BitVec 16) (big : Bool) {absMax L : Nat} (ha : 0 < absMax) (hb : L + min 5 absMax + 10 < 65535) {es : List DEv} {s : DSys}
    {ls : List (List (Nat × Txn))} (hreq : All2 (fun r l => Request big r.1 l) (dRequests es) ls)
    (hp : DPrompt L (DSys.start pid big absMax) es) (hr : (DSys.start pid big absMax).run es = some s) :
    (∃ d e, s.dev = some d ∧ e ≤ ls.length ∧ d.mem = memAfter (tgOf (DH.init pid big).cfg) (fun _ => 0) (ls.take e)) ∧
    s.hub.mode ≠ .crashed ∧
    ∀ k m, (s.hub.out.filter (fun m => decide (m.code = 0)))[k]? = some m →
      ∃ r l body, (dRequests es)[k]? = some r ∧ ls[k]? = some l ∧ m.pid = r.2 ∧ m.pkt = r.1.take 4 ++ octets big body ∧
        ReplyBody .v2 l (execTxns .v2 (tgOf (DH.init pid big).cfg) (l.map Prod.snd) (memAfter (tgOf (DH.init pid big).cfg) (fun _ => 0) (ls.take k))).1 body := by
  have h0 : RS big (DH.init pid big).cfg (DSys.start pid big absMax) (Hub.start fresh absMax) := {
    hub := rfl
    toT := rfl
    toH := rfl
    acc := rfl
    dev := ⟨_, rfl, Rel.init pid big⟩
    wire := by intro x hx; cases hx
    next := by simp [DSys.start]
    q := by intro x hx; cases hx }
  obtain ⟨es', t, r1, r2, r3, r4⟩ := run_rel (by simp [DH.init]) es _ s _ h0 (by
    intro r hr
    obtain ⟨n, hn⟩ := List.getElem?_of_mem hr
    obtain ⟨l, _, hl⟩ := All2.get hreq hn
    exact ⟨l, hl⟩) hp hr
  have hrec : Hub.RecentHist fresh := ⟨by simp [fresh], by intro p x hx; simp [fresh] at hx⟩
  have hd : 0 < fresh.depth := by simp [fresh]
  have hb' : L + min fresh.depth absMax + 2 * fresh.depth < 65535 := by simp only [fresh]; omega
  have hlen : (dRequests es).length = ls.length := by
    clear hp hr r1 r2 r3
    generalize dRequests es = q at hreq
    induction hreq with
    | nil => rfl
    | cons _ _ ih => simp [ih]
  refine ⟨?_, ?_, ?_⟩
  · obtain ⟨e, e1, _, _, _, e5⟩ := Hub.C42_once_partial hd ha hb' hrec r2 r1
    obtain ⟨d, d1, d2⟩ := r4.dev
    rw [r3] at e1 e5
    refine ⟨d, e, d1, by omega, ?_⟩
    rw [d2.mem, e5]
    exact final_mem _ _ _ _ (All2.take hreq e)
  · rw [r4.hub]
    exact Hub.C42_no_crash_partial hd ha hb' hrec r2 r1
  · intro k m hm
    rw [r4.hub] at hm
    obtain ⟨pkt, k1, k2⟩ := Hub.C42_reply_partial hd ha hb' hrec r2 r1 hm
    rw [r3] at k1 k2
    obtain ⟨l, l1, l2⟩ := All2.get hreq k1
    rw [final_mem _ _ _ _ (All2.take hreq k)] at k2
    obtain ⟨_, _, _, p4⟩ := request_parts l2
    obtain ⟨body, b1, b2⟩ := p4 (tgOf (DH.init pid big).cfg) (memAfter (tgOf (DH.init pid big).cfg) (fun _ => 0) (ls.take k))
    refine ⟨_, l, body, k1, l1, rfl, ?_, b2⟩
    rw [k2]
    have : fresh.st = fun _ => (0 : W) := rfl
    rw [this, b1]

theorem step_accepted {s s' : DSys} {e : DEv} (h : s.step e = some s') : s'.accepted.length ≤ s.accepted.length + (dRequests [e]).length := by
  cases e with
  | request pkt pid =>
    simp only [DSys.step] at h
    split at h
    · simp only [Option.some.injEq] at h
      subst h
      simp only [Hub.Hub.sendRequest]
      split <;> simp [dRequests]
    · cases h
  | toTarget i =>
    simp only [DSys.step] at h
    repeat' split at h
    all_goals first
      | (cases h; done)
      | (simp only [Option.some.injEq] at h; subst h; simp [dRequests])
  | toHub i =>
    simp only [DSys.step] at h
    repeat' split at h
    all_goals first
      | (cases h; done)
      | (simp only [Option.some.injEq] at h; subst h; simp [dRequests])
  | timeout =>
    simp only [DSys.step] at h
    repeat' split at h
    all_goals first
      | (cases h; done)
      | (simp only [Option.some.injEq] at h; subst h; simp [dRequests])

/-- Nothing is late before `L` packets have been sent. -/
theorem prompt_short (L : Nat) (es : List DEv) (s : DSys) (h : s.accepted.length + (dRequests es).length ≤ L) : DPrompt L s es := by
  induction es generalizing s with
  | nil => trivial
  | cons e es ih =>
    refine ⟨?_, ?_⟩
    · cases e with
      | request pkt pid => trivial
      | toTarget i => intro x _; simp only [dRequests] at h; omega
      | toHub i => intro x _; simp only [dRequests] at h; omega
      | timeout => trivial
    · intro s' hs
      apply ih
      have h1 := step_accepted hs
      have h2 : (dRequests (e :: es)).length = (dRequests [e]).length + (dRequests es).length := by
        cases e <;> simp [dRequests]; omega
      omega

/-- **C71, behind a ControlHub, the first 65000 packets.** As `C71_hub_partial`, without any assumption about the network. -/
theorem C71_hub_first_partial (pid : BitVec 16) (big : Bool) {absMax : Nat} (ha : 0 < absMax) {es : List DEv} {s : DSys} {ls : List (List (Nat × Txn))}
    (hreq : All2 (fun r l => Request big r.1 l) (dRequests es) ls) (hl : (dRequests es).length ≤ 65000) (hr : (DSys.start pid big absMax).run es = some s) :
    (∃ d e, s.dev = some d ∧ e ≤ ls.length ∧ d.mem = memAfter (tgOf (DH.init pid big).cfg) (fun _ => 0) (ls.take e)) ∧
    s.hub.mode ≠ .crashed ∧
    ∀ k m, (s.hub.out.filter (fun m => decide (m.code = 0)))[k]? = some m →
      ∃ r l body, (dRequests es)[k]? = some r ∧ ls[k]? = some l ∧ m.pid = r.2 ∧ m.pkt = r.1.take 4 ++ octets big body ∧
        ReplyBody .v2 l (execTxns .v2 (tgOf (DH.init pid big).cfg) (l.map Prod.snd) (memAfter (tgOf (DH.init pid big).cfg) (fun _ => 0) (ls.take k))).1 body :=
  C71_hub_partial (L := 65000) pid big ha (by omega) hreq (prompt_short _ _ _ (by simpa [DSys.start] using hl)) hr

/-- Two requests; the first is lost, the second arrives and is ignored. After a while the ControlHub asks for the status and sends both again; the first is answered, and this arrives
twice; the second arrives twice and is answered once. -/
def demo : List DEv :=
  [.request (octets true [0x200000F0, 0x2000011F, 4, 7]) 5, .request (octets true [0x200000F0, 0x2001010F, 4]) 6, .toTarget 1, .timeout, .toTarget 2, .toHub 0, .toTarget 3,
    .toHub 1, .toHub 1, .toTarget 4, .toTarget 1, .toHub 2]

example : All2 (fun r l => Request true r.1 l) (dRequests demo) [[(0, .write true 4 [7])], [(1, .read true 4 1)]] :=
  .cons ⟨_, 0, rfl, by decide +kernel, by simp, by simp⟩ (.cons ⟨_, 0, rfl, by decide +kernel, by simp, by simp⟩ .nil)

example : ((DSys.start 0 true 8).run demo).map (fun s => s.hub.out) =
    some [⟨5, 0, octets true [0x200000F0, 0x20000110]⟩, ⟨6, 0, octets true [0x200000F0, 0x20010100, 7]⟩] := by decide +kernel

end Verif.Dummy
