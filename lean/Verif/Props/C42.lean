import Verif.Lemmas.Hub
/-!
# C42. ControlHub: requests are executed exactly once by an IPbus 2.0 target over a lossy network

The network is that of `Verif/Model/Hub.lean`: every datagram that was ever sent may be delivered at any time, any number of times,
or never. What is proved assumes that no datagram is delivered after more than `L` further packets have been accepted from clients
(`Prompt L`), where `L` plus the number of packets in flight plus twice the number of replies kept by the target is below 65535, the
number of packet IDs; that the target is used by one device client only (no datagrams from others are in the network at the start);
and that the replies it has kept are to the packets executed last. None of the three holds by itself: see `C42_violated_age` and
`C42_violated_restart`.
-/

set_option autoImplicit false

namespace Verif.Hub

/-! ## What is claimed -/

/-- Fewer than `L` packets have been accepted since the datagram was sent that the step delivers. -/
def Fresh {σ : Type} (L : Nat) (s : Sys σ) : Ev → Bool
  | .toTarget i _ => match s.toT[i]? with
    | some d => decide (s.accepted.length ≤ d.1 + L)
    | none => true
  | .toHub i => match s.toH[i]? with
    | some d => decide (s.accepted.length ≤ d.1 + L)
    | none => true
  | _ => true

/-- No datagram is delivered after more than `L` packets have been accepted since it was sent. -/
def Prompt {σ : Type} (exec : σ → Bytes → σ × Bytes) (L : Nat) (s : Sys σ) : List Ev → Bool
  | [] => true
  | e :: es => Fresh L s e && match s.step exec e with
    | some s' => Prompt exec L s' es
    | none => true

/-- A header of an IPbus 2.0 control packet, in one of the two byte orders. -/
def isControl : Bytes → Bool
  | a :: _ :: _ :: d :: _ => (a == 0x20 && d == 0xf0) || (a == 0xf0 && d == 0x20)
  | _ => false

/-- The IPbus 2.0 control packets among the requests, each with the client it is from. -/
def controlRequests : List Ev → List (Bytes × Nat)
  | [] => []
  | .request pkt pid :: es => if isControl pkt then (pkt, pid) :: controlRequests es else controlRequests es
  | _ :: es => controlRequests es

/-- The body of a packet. -/
abbrev bodyOf (r : Bytes × Nat) : Bytes := r.1.drop 4

section
variable {σ : Type} {exec : σ → Bytes → σ × Bytes}

/-! ## Proofs -/

theorem run_inv {t0 : Tgt σ} {w L : Nat} (hb : L + w + 2 * t0.depth < 65535) (hw : 0 < w) :
    ∀ (es : List Ev) (s s' : Sys σ) (lo e : Nat), Inv exec t0 w s lo e → Prompt exec L s es → s.run exec es = some s' →
      ∃ lo' e', Inv exec t0 w s' lo' e' := by
  intro es
  induction es with
  | nil => intro s s' lo e h _ hr; simp only [Sys.run, Option.some.injEq] at hr; subst hr; exact ⟨lo, e, h⟩
  | cons ev es ih =>
    intro s s' lo e h hp hr
    simp only [Sys.run] at hr
    cases hs : s.step exec ev with
    | none => simp [hs] at hr
    | some s1 =>
      simp only [hs] at hr
      simp only [Prompt, hs, Bool.and_eq_true] at hp
      obtain ⟨hp1, hp2⟩ := hp
      cases ev with
      | request pkt pid => exact ih s1 s' lo e (h.request hs) hp2 hr
      | toTarget i junk =>
        obtain ⟨e', h'⟩ := h.toTarget hb (by intro d hd; simpa [Fresh, hd] using hp1) hs
        exact ih s1 s' lo e' h' hp2 hr
      | toHub i =>
        obtain ⟨lo', h'⟩ := h.toHub hb (by intro d hd; simpa [Fresh, hd] using hp1) hs
        exact ih s1 s' lo' e h' hp2 hr
      | timeout => exact ih s1 s' lo e (h.timeout hw hs) hp2 hr

theorem parseControl_v2 (pkt : Bytes) : (∃ e, parseControl pkt = .v2 e) ↔ isControl pkt = true := by
  unfold parseControl isControl
  split
  · rename_i a b c d r
    simp only [Bool.or_eq_true, Bool.and_eq_true, beq_iff_eq]
    by_cases h1 : a = 0x20 ∧ d = 0xf0
    · rw [if_pos h1]; exact ⟨fun _ => .inl h1, fun _ => ⟨_, rfl⟩⟩
    · rw [if_neg h1]
      by_cases h2 : a = 0xf0 ∧ d = 0x20
      · rw [if_pos h2]; exact ⟨fun _ => .inr h2, fun _ => ⟨_, rfl⟩⟩
      · rw [if_neg h2]
        constructor
        · rintro ⟨e, h⟩
          split at h
          · cases h
          · split at h <;> cases h
        · rintro (h | h)
          · exact absurd h h1
          · exact absurd h h2
  · simp

theorem isControl_length {pkt : Bytes} (h : isControl pkt = true) : (pkt.take 4).length = 4 := by
  unfold isControl at h
  split at h
  · simp
  · cases h

/-- The ghost list `accepted` consists of the control requests. -/
theorem step_accepted {s s' : Sys σ} {ev : Ev} (hs : s.step exec ev = some s') :
    s'.accepted.map (fun f => (f.orig ++ f.body, f.pid)) =
      s.accepted.map (fun f => (f.orig ++ f.body, f.pid)) ++ controlRequests [ev] := by
  cases ev with
  | request pkt pid =>
    simp only [Sys.step] at hs
    split at hs
    · simp only [Option.some.injEq] at hs
      subst hs
      simp only [Hub.sendRequest, controlRequests]
      split
      · rename_i e he
        rw [if_pos ((parseControl_v2 pkt).mp ⟨e, he⟩)]
        simp
      · rename_i hne
        rw [if_neg (fun hc => by obtain ⟨e, he⟩ := (parseControl_v2 pkt).mpr hc; exact hne e he)]
        simp
    · cases hs
  | toTarget i junk =>
    simp only [Sys.step] at hs
    cases hd : s.toT[i]? with
    | none => simp [hd] at hs
    | some d =>
      simp only [hd] at hs
      split at hs
      · simp only [Option.some.injEq] at hs; subst hs; simp [controlRequests]
      · cases hs
  | toHub i =>
    simp only [Sys.step] at hs
    cases hd : s.toH[i]? with
    | none => simp [hd] at hs
    | some d =>
      simp only [hd] at hs
      split at hs
      · simp only [Option.some.injEq] at hs; subst hs; simp [controlRequests]
      · cases hs
  | timeout =>
    simp only [Sys.step] at hs
    split at hs
    · cases hs
    · simp only [Option.some.injEq] at hs; subst hs; simp [controlRequests]

theorem controlRequests_cons (e : Ev) (es : List Ev) : controlRequests (e :: es) = controlRequests [e] ++ controlRequests es := by
  cases e <;> simp only [controlRequests, List.nil_append]
  split <;> rfl

theorem run_accepted (es : List Ev) : ∀ (s s' : Sys σ), s.run exec es = some s' →
    s'.accepted.map (fun f => (f.orig ++ f.body, f.pid)) =
      s.accepted.map (fun f => (f.orig ++ f.body, f.pid)) ++ controlRequests es := by
  induction es with
  | nil => intro s s' h; simp only [Sys.run, Option.some.injEq] at h; subst h; simp [controlRequests]
  | cons e es ih =>
    intro s s' h
    simp only [Sys.run] at h
    cases hs : s.step exec e with
    | none => simp [hs] at h
    | some s1 =>
      simp only [hs] at h
      rw [ih s1 s' h, step_accepted hs, controlRequests_cons e es, List.append_assoc]

/-- Each accepted packet keeps the first four bytes as `orig`. -/
def Four (s : Sys σ) : Prop := ∀ f ∈ s.accepted, f.orig.length = 4

theorem step_four {s s' : Sys σ} {ev : Ev} (h : Four s) (hs : s.step exec ev = some s') : Four s' := by
  cases ev with
  | request pkt pid =>
    simp only [Sys.step] at hs
    split at hs
    · simp only [Option.some.injEq] at hs
      subst hs
      simp only [Hub.sendRequest]
      split
      · rename_i e he
        intro f hf
        simp only [List.drop_left] at hf
        rcases List.mem_append.mp hf with hf | hf
        · exact h f hf
        · simp only [List.mem_singleton] at hf
          subst hf
          exact isControl_length ((parseControl_v2 pkt).mp ⟨e, he⟩)
      · intro f hf; simp at hf; exact h f hf
    · cases hs
  | toTarget i junk =>
    simp only [Sys.step] at hs
    cases hd : s.toT[i]? with
    | none => simp [hd] at hs
    | some d =>
      simp only [hd] at hs
      split at hs
      · simp only [Option.some.injEq] at hs; subst hs; exact h
      · cases hs
  | toHub i =>
    simp only [Sys.step] at hs
    cases hd : s.toH[i]? with
    | none => simp [hd] at hs
    | some d =>
      simp only [hd] at hs
      split at hs
      · simp only [Option.some.injEq] at hs; subst hs; exact h
      · cases hs
  | timeout =>
    simp only [Sys.step] at hs
    split at hs
    · cases hs
    · simp only [Option.some.injEq] at hs; subst hs; exact h

theorem run_four (es : List Ev) : ∀ (s s' : Sys σ), Four s → s.run exec es = some s' → Four s' := by
  induction es with
  | nil => intro s s' h0 h; simp only [Sys.run, Option.some.injEq] at h; subst h; exact h0
  | cons e es ih =>
    intro s s' h0 h
    simp only [Sys.run] at h
    cases hs : s.step exec e with
    | none => simp [hs] at h
    | some s1 => simp only [hs] at h; exact ih s1 s' (step_four h0 hs) h

/-- The bodies of the accepted packets. -/
theorem Four.bodies {s : Sys σ} (h4 : Four s) {reqs : List (Bytes × Nat)}
    (hacc : s.accepted.map (fun f => (f.orig ++ f.body, f.pid)) = reqs) : s.accepted.map (·.body) = reqs.map bodyOf := by
  rw [← hacc, List.map_map]
  apply List.map_congr_left
  intro f hf
  have := h4 f hf
  simp only [Function.comp, bodyOf]
  rw [List.drop_append_of_le_length (by omega), List.drop_of_length_le (by omega)]
  rfl

/-- What is known about every run of one device client. -/
theorem run_facts {t0 : Tgt σ} {absMax L : Nat} (hd : 0 < t0.depth) (ha : 0 < absMax)
    (hb : L + min t0.depth absMax + 2 * t0.depth < 65535) (h0 : RecentHist t0) {es : List Ev} {s : Sys σ}
    (hp : Prompt exec L (start t0 absMax) es) (hr : (start t0 absMax).run exec es = some s) :
    (∃ lo e, Inv exec t0 (min t0.depth absMax) s lo e) ∧
    s.accepted.map (fun f => (f.orig ++ f.body, f.pid)) = controlRequests es ∧
    s.accepted.map (·.body) = (controlRequests es).map bodyOf := by
  have hi := run_inv hb (by omega) es _ s 0 0 (Inv.start exec t0 absMax h0) hp hr
  have hacc := run_accepted es _ s hr
  have h4 : Four s := run_four es _ s (by intro f hf; simp [start] at hf) hr
  have hacc' : s.accepted.map (fun f => (f.orig ++ f.body, f.pid)) = controlRequests es := by simpa [start] using hacc
  exact ⟨hi, hacc', h4.bodies hacc'⟩

/-- What the invariant says about the target. -/
theorem Inv.once {t0 : Tgt σ} {w lo e : Nat} {s : Sys σ} (h : Inv exec t0 w s lo e) {reqs : List (Bytes × Nat)}
    (hacc : s.accepted.map (fun f => (f.orig ++ f.body, f.pid)) = reqs) (hbody : s.accepted.map (·.body) = reqs.map bodyOf) :
    e ≤ reqs.length ∧
      s.tgt.log.length = t0.log.length + e ∧
      s.tgt.log.take t0.log.length = t0.log ∧
      (∀ k r, k < e → reqs[k]? = some r →
        ∃ en, s.tgt.log[t0.log.length + k]? = some (pktHeader (idAt t0.expected k) en ++ bodyOf r)) ∧
      s.tgt.st = final exec t0.st ((reqs.take e).map bodyOf) := by
  have hlen : reqs.length = s.accepted.length := by rw [← hacc, List.length_map]
  refine ⟨by rw [hlen]; exact h.ea, ?_, ?_, ?_, ?_⟩
  · rw [h.log]; simp [h.ea]
  · rw [h.log]; simp
  · intro k r hk hkr
    rw [← hacc, List.getElem?_map] at hkr
    cases hf : s.accepted[k]? with
    | none => simp [hf] at hkr
    | some f =>
      obtain ⟨en, hen⟩ := h.hdrs k f hf
      have hfb : bodyOf r = f.body := by
        have h1 : (s.accepted.map (·.body))[k]? = some f.body := by simp [hf]
        have h2 : (reqs.map bodyOf)[k]? = some (bodyOf r) := by
          rw [← hacc]; simp only [hf, Option.map_some, Option.some.injEq] at hkr
          simp [hf, ← hkr]
        rw [hbody, h2] at h1
        exact Option.some.inj h1
      refine ⟨en, ?_⟩
      rw [h.log, List.getElem?_append_right (by omega)]
      have : t0.log.length + k - t0.log.length = k := by omega
      rw [this, List.getElem?_map, List.getElem?_take, if_pos hk, hf]
      simp [Flight.sent, hen, hfb]
  · rw [h.st, List.map_take, hbody, List.map_take]

theorem replies_get (st : σ) : ∀ (bs : List Bytes) (k : Nat) (b : Bytes), bs[k]? = some b →
    (replies exec st bs)[k]? = some (exec (final exec st (bs.take k)) b).2 := by
  intro bs
  induction bs generalizing st with
  | nil => intro k b h; simp at h
  | cons x xs ih =>
    intro k b h
    cases k with
    | zero => simp at h; subst h; simp [replies, final]
    | succ k => simp at h; simpa [replies, final] using ih _ k b h

/-- What the invariant says about the replies. -/
theorem Inv.reply {t0 : Tgt σ} {w lo e : Nat} {s : Sys σ} (h : Inv exec t0 w s lo e) (h4 : Four s) {reqs : List (Bytes × Nat)}
    (hacc : s.accepted.map (fun f => (f.orig ++ f.body, f.pid)) = reqs) (hbody : s.accepted.map (·.body) = reqs.map bodyOf)
    {k : Nat} {m : Msg} (hm : (s.hub.out.filter (fun m => decide (m.code = 0)))[k]? = some m) :
    ∃ pkt, reqs[k]? = some (pkt, m.pid) ∧
      m.pkt = pkt.take 4 ++ (exec (final exec t0.st ((reqs.take k).map bodyOf)) (pkt.drop 4)).2 := by
  rw [h.out] at hm
  simp only [answers, List.getElem?_map, Option.map_eq_some_iff] at hm
  obtain ⟨x, hx, rfl⟩ := hm
  rw [List.getElem?_take] at hx
  split at hx
  · rename_i hk
    rw [List.getElem?_zip_eq_some] at hx
    obtain ⟨hx1, hx2⟩ := hx
    have hlt := lt_of_get hx1
    have hke : k < e := by have := h.loe; omega
    have h4x := h4 x.1 (List.mem_of_getElem? hx1)
    refine ⟨x.1.orig ++ x.1.body, ?_, ?_⟩
    · rw [← hacc, List.getElem?_map, hx1]; rfl
    · have hrep : x.2 = (exec (final exec t0.st ((reqs.take k).map bodyOf)) x.1.body).2 := by
        have hb' : ((s.accepted.take e).map (·.body))[k]? = some x.1.body := by
          rw [List.getElem?_map, List.getElem?_take, if_pos hke, hx1]; rfl
        have := replies_get (exec := exec) t0.st _ k _ hb'
        simp only [reps] at hx2
        rw [hx2] at this
        have := Option.some.inj this
        rw [this, ← List.map_take, List.take_take, Nat.min_eq_left (by omega), List.map_take, hbody, List.map_take]
      rw [List.take_append_of_le_length (by omega), List.take_of_length_le (by omega),
        List.drop_append_of_le_length (by omega), List.drop_of_length_le (by omega), hrep]
      rfl
  · cases hx


/-- **C42, the target.** The target executes an initial part of the control requests, each of them once, in the order in which they were
accepted: packet `k` goes out with the ID that the target expects `k` packets after the start and otherwise as the client sent it. -/
theorem C42_once_partial {t0 : Tgt σ} {absMax L : Nat} (hd : 0 < t0.depth) (ha : 0 < absMax)
    (hb : L + min t0.depth absMax + 2 * t0.depth < 65535) (h0 : RecentHist t0) {es : List Ev} {s : Sys σ}
    (hp : Prompt exec L (start t0 absMax) es) (hr : (start t0 absMax).run exec es = some s) :
    ∃ e, e ≤ (controlRequests es).length ∧
      s.tgt.log.length = t0.log.length + e ∧
      s.tgt.log.take t0.log.length = t0.log ∧
      (∀ k r, k < e → (controlRequests es)[k]? = some r →
        ∃ en, s.tgt.log[t0.log.length + k]? = some (pktHeader (idAt t0.expected k) en ++ bodyOf r)) ∧
      s.tgt.st = final exec t0.st (((controlRequests es).take e).map bodyOf) := by
  obtain ⟨⟨lo, e, h⟩, hacc, hbody⟩ := run_facts hd ha hb h0 hp hr
  exact ⟨e, h.once hacc hbody⟩

/-- **C42, the clients.** The `k`-th reply that is forwarded goes to the client that sent the `k`-th control request, with the packet
header of that request, and contains what the target answered to it after executing those before it. -/
theorem C42_reply_partial {t0 : Tgt σ} {absMax L : Nat} (hd : 0 < t0.depth) (ha : 0 < absMax)
    (hb : L + min t0.depth absMax + 2 * t0.depth < 65535) (h0 : RecentHist t0) {es : List Ev} {s : Sys σ}
    (hp : Prompt exec L (start t0 absMax) es) (hr : (start t0 absMax).run exec es = some s) {k : Nat} {m : Msg}
    (hm : (s.hub.out.filter (fun m => decide (m.code = 0)))[k]? = some m) :
    ∃ pkt, (controlRequests es)[k]? = some (pkt, m.pid) ∧
      m.pkt = pkt.take 4 ++ (exec (final exec t0.st (((controlRequests es).take k).map bodyOf)) (pkt.drop 4)).2 := by
  obtain ⟨⟨lo, e, h⟩, hacc, hbody⟩ := run_facts hd ha hb h0 hp hr
  have h4 : Four s := run_four es _ s (by intro f hf; simp [start] at hf) hr
  exact h.reply h4 hacc hbody hm

/-- **C42, no crash.** The device client never fails to match what it receives. -/
theorem C42_no_crash_partial {t0 : Tgt σ} {absMax L : Nat} (hd : 0 < t0.depth) (ha : 0 < absMax)
    (hb : L + min t0.depth absMax + 2 * t0.depth < 65535) (h0 : RecentHist t0) {es : List Ev} {s : Sys σ}
    (hp : Prompt exec L (start t0 absMax) es) (hr : (start t0 absMax).run exec es = some s) : s.hub.mode ≠ .crashed := by
  obtain ⟨⟨lo, e, h⟩, _⟩ := run_facts hd ha hb h0 hp hr
  exact h.mode.1

theorem idAt_idAt (b e n : Nat) : idAt (idAt b e) n = idAt b (e + n) := by simp only [idAt]; omega

theorem idAt_period (b n : Nat) : idAt b (n + 65535) = idAt b n := by simp only [idAt]; omega

/-- **C42, the next device client.** When the process ends, the target is again in a state in which what is claimed here holds for the
next one. -/
theorem C42_next_partial {t0 : Tgt σ} {absMax L : Nat} (hd : 0 < t0.depth) (ha : 0 < absMax)
    (hb : L + min t0.depth absMax + 2 * t0.depth < 65535) (h0 : RecentHist t0) {es : List Ev} {s : Sys σ}
    (hp : Prompt exec L (start t0 absMax) es) (hr : (start t0 absMax).run exec es = some s) :
    RecentHist s.tgt ∧ s.tgt.depth = t0.depth := by
  obtain ⟨⟨lo, e, h⟩, _⟩ := run_facts hd ha hb h0 hp hr
  have hdep := h.depth
  have hl := h.histLen
  refine ⟨⟨by omega, ?_⟩, hdep⟩
  intro p x hx
  have hlt := lt_of_get hx
  rw [h.exp]
  simp only [idAt_idAt]
  rcases Nat.lt_or_ge p e with hpe | hpe
  · obtain ⟨f, r, _, _, h3⟩ := h.histNew p x hx hpe
    right
    refine ⟨p + 1, by omega, by omega, ?_⟩
    have : e + (65535 - (p + 1)) = (e - 1 - p) + 65535 := by omega
    rw [this, idAt_period, h3]
  · rcases h.histOld p x hx hpe with hz | ⟨m, h1, h2, h3⟩
    · exact .inl hz
    · right
      refine ⟨m + e, by omega, by omega, ?_⟩
      have : e + (65535 - (m + e)) = 65535 - m := by omega
      rw [this, h3]

/-! ## Recovery -/

theorem run_cons {s s1 : Sys σ} {e : Ev} {es : List Ev} (h : s.step exec e = some s1) : s.run exec (e :: es) = s1.run exec es := by
  simp only [Sys.run, h]

/-- The target answers the request for a packet in flight: executing it if it has not been executed, from the replies it has kept
otherwise. -/
theorem Inv.answers {t0 : Tgt σ} {w : Nat} {s : Sys σ} {lo e : Nat} (h : Inv exec t0 w s lo e) (hb : w + 2 * t0.depth < 65535)
    (hw : w ≤ t0.depth) {f : Flight} (hf : s.accepted[lo]? = some f) (junk : Bytes) :
    (e = lo → ∃ t r, s.tgt.recv exec f.sent junk = (t, [f.hdr ++ r])) ∧
    (lo < e → ∃ r, s.tgt.recv exec (resendPkt f.hdr) junk = (s.tgt, [f.hdr ++ r])) := by
  obtain ⟨en, hen⟩ := h.hdrs lo f hf
  have hl4 : f.hdr.length = 4 := by rw [hen, pktHeader_length]
  have hloacc := lt_of_get hf
  refine ⟨fun he => ?_, fun he => ?_⟩
  · have hid : headerId f.sent = some s.tgt.expected := by
      rw [Flight.sent, hen, headerId_pktHeader, h.exp, he]
    refine ⟨(s.tgt.recv exec f.sent junk).1, (exec s.tgt.st (f.sent.drop 4)).2, ?_⟩
    simp only [Tgt.recv, hid]
    rw [if_neg (by simp)]
    rw [show f.sent.take 4 = f.hdr by
      rw [Flight.sent, List.take_append_of_le_length (by omega), List.take_of_length_le (by omega)]]
  · have hwin := h.win; have hea := h.ea; have hhl := h.histLen
    have hsum : idAt t0.expected lo / 256 * 256 + idAt t0.expected lo % 256 = idAt t0.expected lo := by omega
    -- the reply is among those kept
    have hp : e - 1 - lo < s.tgt.hist.length := by omega
    have hx := List.getElem?_eq_getElem hp
    obtain ⟨f', r', g1, g2, g3⟩ := h.histNew _ _ hx (by omega)
    have hidx : e - 1 - (e - 1 - lo) = lo := by omega
    rw [hidx] at g3
    cases hfind : s.tgt.hist.find? (fun x => decide (x.1 = idAt t0.expected lo)) with
    | none =>
      exfalso
      rw [List.find?_eq_none] at hfind
      have := hfind _ (List.mem_of_getElem? hx)
      rw [g3] at this
      simp at this
    | some x =>
      have hxid : x.1 = idAt t0.expected lo := by simpa using List.find?_some hfind
      obtain ⟨p, hpx⟩ := List.getElem?_of_mem (List.mem_of_find?_eq_some hfind)
      have hplen := lt_of_get hpx
      have hpos := idAt_range t0.expected lo
      have hx2 : ∃ r, x.2 = f.hdr ++ r := by
        rcases Nat.lt_or_ge p e with hpe | hpe
        · obtain ⟨f2, r2, k1, k2, k3⟩ := h.histNew p x hpx hpe
          have : e - 1 - p = lo := by
            rw [k3] at hxid
            exact idAt_inj hxid (by omega) (by omega)
          rw [this, hf] at k1
          refine ⟨r2, ?_⟩
          rw [k3, Option.some.inj k1]
        · exfalso
          rcases h.histOld p x hpx hpe with h0 | ⟨m, hm1, hm2, hm3⟩
          · omega
          · rw [hxid] at hm3
            have := idAt_inj hm3 (by omega) (by omega)
            omega
      obtain ⟨r, hr⟩ := hx2
      refine ⟨r, ?_⟩
      rw [hen, resendPkt_pktHeader]
      simp [Tgt.recv, headerId, hsum, hfind, hr, hen]

theorem last_step {s : Sys σ} {b : Bool} {f : Flight} {q : List Flight} {i n : Nat} {r : Bytes} (hl4 : f.hdr.length = 4)
    (hm : s.hub.mode = .resent 0 b) (hq : s.hub.q = f :: q) (hi : s.toH[i]? = some (n, f.hdr ++ r)) :
    s.run exec [.toHub i] = some { s with
      hub := { s.hub with mode := .normal, nr := s.hub.nr - 1, q := q, out := s.hub.out ++ [⟨f.pid, 0, f.orig ++ r⟩] } } := by
  have htk : (f.hdr ++ r).take 4 = f.hdr := by
    rw [List.take_append_of_le_length (by omega), List.take_of_length_le (by omega)]
  have hdr : (f.hdr ++ r).drop 4 = r := by
    rw [List.drop_append_of_le_length (by omega), List.drop_of_length_le (by omega)]; rfl
  have hlen : ¬ (f.hdr ++ r).length < 4 := by simp [hl4]
  have htakes : s.hub.takes (f.hdr ++ r) = true := by simp only [Hub.takes, hm, hq, htk]; simp
  have hfw : Hub.forward { s.hub with mode := .normal } (f.hdr ++ r) =
      { s.hub with mode := .normal, nr := s.hub.nr - 1, q := q, out := s.hub.out ++ [⟨f.pid, 0, f.orig ++ r⟩] } := by
    rw [forward_cons (h := { s.hub with mode := .normal }) hq, if_neg hlen, if_pos htk, hdr]
  simp only [Sys.run, Sys.step, hi, htakes, if_true, Hub.recv, hm, hfw]
  simp

/-- One recovery in which nothing is lost. -/
theorem Inv.recover {t0 : Tgt σ} {w : Nat} {s : Sys σ} {lo e : Nat} (h : Inv exec t0 w s lo e) (hb : w + 2 * t0.depth < 65535)
    (hw : w ≤ t0.depth) {f : Flight} {q : List Flight} (hm : s.hub.mode = .normal) (hq : s.hub.q = f :: q) (junk : Bytes)
    (hj : junk.length = 48) :
    ∃ s' r, s.run exec [.timeout, .toTarget s.toT.length junk, .toHub s.toH.length, .toTarget (s.toT.length + 1) junk,
        .toHub (s.toH.length + 1)] = some s' ∧
      s'.hub = { s.hub with nr := s.hub.nr - 1, q := q, out := s.hub.out ++ [⟨f.pid, 0, f.orig ++ r⟩] } := by
  have hf : s.accepted[lo]? = some f := by
    have := h.q
    rw [hq] at this
    have h0 : (s.accepted.drop lo)[0]? = some f := by rw [← this]; rfl
    simpa [List.getElem?_drop] using h0
  obtain ⟨en, hen⟩ := h.hdrs lo f hf
  have hl4 : f.hdr.length = 4 := by rw [hen, pktHeader_length]
  have hloacc := lt_of_get hf
  have hnr : s.hub.nr ≠ 0 := by have := h.nr; omega
  have hwin := h.win; have hea := h.ea; have hloe := h.loe
  have hdec : decIdN s.hub.next s.hub.nr = idAt t0.expected lo := by
    have := h.nr
    rw [h.next, ← this, Nat.add_comm, decIdN_idAt]
  let n := s.accepted.length
  -- time runs out
  have e1 : s.step exec .timeout = some { s with hub := { s.hub with mode := .status 0 5 }, toT := s.toT ++ [(n, statusReq)] } := by
    simp [Sys.step, Hub.timeout, hm, hnr, n]
  rw [run_cons e1]
  -- the status request arrives
  have e2 : Sys.step exec { s with hub := { s.hub with mode := .status 0 5 }, toT := s.toT ++ [(n, statusReq)] }
      (.toTarget s.toT.length junk) = some { s with
        hub := { s.hub with mode := .status 0 5 }, toT := s.toT ++ [(n, statusReq)], toH := s.toH ++ [(n, s.tgt.status junk)] } := by
    have : s.tgt.recv exec statusReq junk = (s.tgt, [s.tgt.status junk]) := by simp [Tgt.recv, statusReq, headerId]
    simp [Sys.step, hj, this, n]
  rw [run_cons e2]
  have hst1 : ¬ (s.tgt.status junk).take 4 = [0xfc, 0, 0, 0x10] := by rw [status_take]; decide
  obtain ⟨ans1, ans2⟩ := h.answers hb hw hf junk
  by_cases he : e = lo
  · -- none of the packets in flight has been executed
    obtain ⟨t, r, hrecv⟩ := ans1 he
    have hexp : s.tgt.expected = decIdN s.hub.next s.hub.nr := by rw [hdec, h.exp, he]
    have e3 : Sys.step exec { s with
          hub := { s.hub with mode := .status 0 5 }, toT := s.toT ++ [(n, statusReq)], toH := s.toH ++ [(n, s.tgt.status junk)] }
        (.toHub s.toH.length) = some { s with
          hub := { s.hub with mode := .resent 0 true }, toT := s.toT ++ [(n, statusReq)] ++ (s.hub.q.map Flight.sent).map (fun b => (n, b)),
          toH := s.toH ++ [(n, s.tgt.status junk)] } := by
      simp only [Sys.step, List.getElem?_concat_length, Hub.takes, status_take, Hub.recv]
      rw [if_pos (by simp), if_neg (by decide)]
      simp only [parseStatus_status s.tgt junk hj]
      rw [if_neg (by rw [hq]; simp), if_pos hexp]
    rw [run_cons e3]
    have hget : (s.toT ++ [(n, statusReq)] ++ (s.hub.q.map Flight.sent).map (fun b => (n, b)))[s.toT.length + 1]? = some (n, f.sent) := by
      rw [hq, List.getElem?_append_right (by simp)]; simp
    have e4 : Sys.step exec { s with
          hub := { s.hub with mode := .resent 0 true }, toT := s.toT ++ [(n, statusReq)] ++ (s.hub.q.map Flight.sent).map (fun b => (n, b)),
          toH := s.toH ++ [(n, s.tgt.status junk)] } (.toTarget (s.toT.length + 1) junk) = some { s with
          hub := { s.hub with mode := .resent 0 true }, tgt := t
          toT := s.toT ++ [(n, statusReq)] ++ (s.hub.q.map Flight.sent).map (fun b => (n, b)),
          toH := s.toH ++ [(n, s.tgt.status junk)] ++ [(n, f.hdr ++ r)] } := by
      simp only [Sys.step, hget, hj, hrecv]
      simp [n]
    rw [run_cons e4]
    refine ⟨_, r, last_step hl4 rfl hq (n := n) (r := r) (by rw [List.getElem?_append_right (by simp)]; simp), ?_⟩
    simp [hm]
  · have hlt : lo < e := by omega
    obtain ⟨r, hrecv⟩ := ans2 hlt
    have hexp : s.tgt.expected ≠ decIdN s.hub.next s.hub.nr := by
      rw [hdec, h.exp]; intro hh
      exact he (idAt_inj hh (by omega) (by omega))
    have e3 : Sys.step exec { s with
          hub := { s.hub with mode := .status 0 5 }, toT := s.toT ++ [(n, statusReq)], toH := s.toH ++ [(n, s.tgt.status junk)] }
        (.toHub s.toH.length) = some { s with
          hub := { s.hub with mode := .resent 0 false },
          toT := s.toT ++ [(n, statusReq)] ++ (s.hub.q.map fun f => resendPkt f.hdr).map (fun b => (n, b)),
          toH := s.toH ++ [(n, s.tgt.status junk)] } := by
      simp only [Sys.step, List.getElem?_concat_length, Hub.takes, status_take, Hub.recv]
      rw [if_pos (by simp), if_neg (by decide)]
      simp only [parseStatus_status s.tgt junk hj]
      rw [if_neg (by rw [hq]; simp), if_neg hexp]
    rw [run_cons e3]
    have hget : (s.toT ++ [(n, statusReq)] ++ (s.hub.q.map fun f => resendPkt f.hdr).map (fun b => (n, b)))[s.toT.length + 1]? =
        some (n, resendPkt f.hdr) := by
      rw [hq, List.getElem?_append_right (by simp)]; simp
    have e4 : Sys.step exec { s with
          hub := { s.hub with mode := .resent 0 false },
          toT := s.toT ++ [(n, statusReq)] ++ (s.hub.q.map fun f => resendPkt f.hdr).map (fun b => (n, b)),
          toH := s.toH ++ [(n, s.tgt.status junk)] } (.toTarget (s.toT.length + 1) junk) = some { s with
          hub := { s.hub with mode := .resent 0 false },
          toT := s.toT ++ [(n, statusReq)] ++ (s.hub.q.map fun f => resendPkt f.hdr).map (fun b => (n, b)),
          toH := s.toH ++ [(n, s.tgt.status junk)] ++ [(n, f.hdr ++ r)] } := by
      simp only [Sys.step, hget, hj, hrecv]
      simp [n]
    rw [run_cons e4]
    refine ⟨_, r, last_step hl4 rfl hq (n := n) (r := r) (by rw [List.getElem?_append_right (by simp)]; simp), ?_⟩
    simp [hm]

/-- **C42, recovery.** Whatever has been lost so far: if the four datagrams after a timeout arrive (status request, its reply, the first
of the packets sent then, its reply), the oldest packet in flight is answered and the device client is back in its loop. -/
theorem C42_recovery_partial {t0 : Tgt σ} {absMax L : Nat} (hd : 0 < t0.depth) (ha : 0 < absMax)
    (hb : L + min t0.depth absMax + 2 * t0.depth < 65535) (h0 : RecentHist t0) {es : List Ev} {s : Sys σ}
    (hp : Prompt exec L (start t0 absMax) es) (hr : (start t0 absMax).run exec es = some s)
    {f : Flight} {q : List Flight} (hm : s.hub.mode = .normal) (hq : s.hub.q = f :: q) (junk : Bytes) (hj : junk.length = 48) :
    ∃ s' r, s.run exec [.timeout, .toTarget s.toT.length junk, .toHub s.toH.length, .toTarget (s.toT.length + 1) junk,
        .toHub (s.toH.length + 1)] = some s' ∧
      s'.hub = { s.hub with nr := s.hub.nr - 1, q := q, out := s.hub.out ++ [⟨f.pid, 0, f.orig ++ r⟩] } := by
  obtain ⟨⟨lo, e, h⟩, _⟩ := run_facts hd ha hb h0 hp hr
  exact h.recover (by omega) (Nat.min_le_left _ _) hm hq junk hj

/-! ## Every client hears of its request -/

/-- The clients of all requests, in order. -/
def requestPids : List Ev → List Nat
  | [] => []
  | .request _ pid :: es => pid :: requestPids es
  | _ :: es => requestPids es

/-- Those that are still waiting. -/
def Hub.waiting (h : Hub) : List Nat := if h.mode = .stopped then [] else h.q.map (·.pid)

theorem requestPids_cons (e : Ev) (es : List Ev) : requestPids (e :: es) = requestPids [e] ++ requestPids es := by
  cases e <;> simp [requestPids]

theorem forward_facts {h : Hub} (p : Bytes) (hn : h.nr = h.q.length) (hm : h.mode = .normal) :
    (h.forward p).nr = (h.forward p).q.length ∧ (h.forward p).mode ≠ .stopped ∧
    (h.forward p).out.map (·.pid) ++ (h.forward p).q.map (·.pid) = h.out.map (·.pid) ++ h.q.map (·.pid) := by
  cases hq : h.q with
  | nil => rw [forward_nil hq, hq]; exact ⟨by rw [hn, hq], by rw [hm]; simp, rfl⟩
  | cons f q' =>
    rw [forward_cons hq]
    rw [hq] at hn
    split
    · exact ⟨by simp [hn, hq], by simp, by simp [hq]⟩
    · split
      · exact ⟨by simp [hn], by simp [hm], by simp⟩
      · exact ⟨by simp [hn, hq], by simp [hm], by simp [hq]⟩

theorem step_response {s s' : Sys σ} {ev : Ev} (hn : s.hub.nr = s.hub.q.length) (hs : s.step exec ev = some s') :
    s'.hub.nr = s'.hub.q.length ∧
    (s'.hub.out.map (·.pid) ++ s'.hub.waiting).Perm (s.hub.out.map (·.pid) ++ s.hub.waiting ++ requestPids [ev]) := by
  cases ev with
  | request pkt pid =>
    simp only [Sys.step] at hs
    split at hs
    · rename_i hc
      simp only [Option.some.injEq] at hs
      subst hs
      simp only [Hub.sendRequest]
      split
      · refine ⟨by simp [hn], ?_⟩
        simp [Hub.waiting, hc.1, requestPids]
      · refine ⟨hn, ?_⟩
        simp only [Hub.waiting, hc.1, requestPids, List.map_append, List.map_cons, List.map_nil, List.append_assoc]
        exact List.Perm.append_left _ (by simpa using (List.perm_append_comm (l₁ := [pid])))
    · cases hs
  | toTarget i junk =>
    simp only [Sys.step] at hs
    cases hd : s.toT[i]? with
    | none => simp [hd] at hs
    | some d =>
      simp only [hd] at hs
      split at hs
      · simp only [Option.some.injEq] at hs; subst hs; exact ⟨hn, by simp [requestPids]⟩
      · cases hs
  | toHub i =>
    simp only [Sys.step] at hs
    cases hd : s.toH[i]? with
    | none => simp [hd] at hs
    | some d =>
      simp only [hd] at hs
      split at hs
      · rename_i htk
        simp only [Option.some.injEq] at hs
        subst hs
        simp only [requestPids, List.append_nil]
        cases hm : s.hub.mode with
        | normal =>
          simp only [Hub.recv, hm]
          obtain ⟨h1, h2, h3⟩ := forward_facts d.2 hn hm
          refine ⟨h1, ?_⟩
          simp only [Hub.waiting, h2, if_false, hm, h3]
          simp
        | resent n lost =>
          simp only [Hub.recv, hm]
          obtain ⟨h1, h2, h3⟩ := forward_facts (h := { s.hub with mode := .normal }) d.2 hn rfl
          refine ⟨h1, ?_⟩
          simp only [Hub.waiting, h2, if_false, hm, h3]
          simp
        | status n left =>
          simp only [Hub.recv, hm]
          split
          · exact ⟨hn, by simp [Hub.waiting, hm]⟩
          · split
            · exact ⟨hn, by simp [Hub.waiting, hm]⟩
            · refine ⟨hn, ?_⟩
              simp [Hub.giveUp, Hub.waiting, hm, List.map_map, Function.comp_def]
            · split
              · exact ⟨hn, by simp [Hub.waiting, hm]⟩
              · split <;> exact ⟨hn, by simp [Hub.waiting, hm]⟩
        | stopped => simp [Hub.takes, hm] at htk
        | crashed => simp [Hub.takes, hm] at htk
      · cases hs
  | timeout =>
    simp only [Sys.step] at hs
    split at hs
    · cases hs
    rename_i hnot
    simp only [Option.some.injEq] at hs
    subst hs
    simp only [requestPids, List.append_nil]
    have give : ∀ code, s.hub.mode ≠ .stopped → (s.hub.giveUp code).nr = (s.hub.giveUp code).q.length ∧
        ((s.hub.giveUp code).out.map (·.pid) ++ (s.hub.giveUp code).waiting).Perm (s.hub.out.map (·.pid) ++ s.hub.waiting) := by
      intro code hm
      refine ⟨hn, ?_⟩
      simp [Hub.giveUp, Hub.waiting, hm, List.map_map, Function.comp_def]
    cases hm : s.hub.mode with
    | normal =>
      simp only [Hub.timeout, hm]
      split
      · exact ⟨hn, by simp [Hub.waiting, hm]⟩
      · rename_i hc
        have hq : s.hub.q = [] := List.length_eq_zero_iff.mp (by omega)
        exact ⟨hn, by simp [Hub.waiting, hm, hq]⟩
    | status n left =>
      simp only [Hub.timeout, hm]
      split
      · exact give 3 (by rw [hm]; simp)
      · exact ⟨hn, by simp [Hub.waiting, hm]⟩
    | resent n lost =>
      simp only [Hub.timeout, hm]
      split
      · exact give _ (by rw [hm]; simp)
      · exact ⟨hn, by simp [Hub.waiting, hm]⟩
    | stopped => exact absurd (.inl hm) hnot
    | crashed => exact absurd (.inr hm) hnot

/-- **C42, one message per request.** At any time, the clients that have been sent a message together with those whose packets are in
flight are the clients of all requests, with multiplicity. In particular, when the process has stopped, every request has been
answered exactly once, by a reply or by an error code. This needs no assumption about the network. -/
theorem C42_one_message (t0 : Tgt σ) (absMax : Nat) {es : List Ev} {s : Sys σ} (hr : (start t0 absMax).run exec es = some s) :
    (s.hub.out.map (·.pid) ++ s.hub.waiting).Perm (requestPids es) := by
  have gen : ∀ (es : List Ev) (s s' : Sys σ), s.hub.nr = s.hub.q.length → s.run exec es = some s' →
      (s'.hub.out.map (·.pid) ++ s'.hub.waiting).Perm (s.hub.out.map (·.pid) ++ s.hub.waiting ++ requestPids es) := by
    intro es
    induction es with
    | nil => intro s s' _ h; simp only [Sys.run, Option.some.injEq] at h; subst h; simp [requestPids]
    | cons e es ih =>
      intro s s' hn h
      simp only [Sys.run] at h
      cases hs : s.step exec e with
      | none => simp [hs] at h
      | some s1 =>
        simp only [hs] at h
        obtain ⟨h1, h2⟩ := step_response hn hs
        rw [requestPids_cons, ← List.append_assoc]
        exact (ih s1 s' h1 h).trans (h2.append_right _)
  have := gen es _ s rfl hr
  simpa [start, Hub.waiting] using this

/-! ## Recovery ends -/

/-- An upper bound for the number of timeouts until the process stops, unless a reply arrives. -/
def rank : Mode → Nat
  | .normal => 31
  | .status n left => (4 - n) * 6 + 1 + left
  | .resent n _ => (4 - n) * 6 + 1
  | .stopped => 0
  | .crashed => 0

/-- At most five recoveries, at most five attempts each. -/
def Limited : Mode → Prop
  | .status n left => n ≤ 4 ∧ 1 ≤ left ∧ left ≤ 5
  | .resent n _ => n ≤ 4
  | _ => True

def timeouts : List Ev → Nat
  | [] => 0
  | .timeout :: es => timeouts es + 1
  | _ :: es => timeouts es

theorem step_rank {s s' : Sys σ} {ev : Ev} (hl : Limited s.hub.mode) (hs : s.step exec ev = some s') :
    Limited s'.hub.mode ∧ s.hub.out <+: s'.hub.out ∧
    ((s'.hub.out.filter (fun m => decide (m.code = 0))).length = (s.hub.out.filter (fun m => decide (m.code = 0))).length →
      rank s'.hub.mode + timeouts [ev] ≤ rank s.hub.mode) := by
  cases ev with
  | request pkt pid =>
    simp only [Sys.step] at hs
    split at hs
    · simp only [Option.some.injEq] at hs
      subst hs
      simp only [Hub.sendRequest]
      split
      · exact ⟨hl, List.prefix_refl _, fun _ => by simp [timeouts]⟩
      · exact ⟨hl, List.prefix_append _ _, fun _ => by simp [timeouts]⟩
    · cases hs
  | toTarget i junk =>
    simp only [Sys.step] at hs
    cases hd : s.toT[i]? with
    | none => simp [hd] at hs
    | some d =>
      simp only [hd] at hs
      split at hs
      · simp only [Option.some.injEq] at hs; subst hs; exact ⟨hl, List.prefix_refl _, fun _ => by simp [timeouts]⟩
      · cases hs
  | toHub i =>
    simp only [Sys.step] at hs
    cases hd : s.toH[i]? with
    | none => simp [hd] at hs
    | some d =>
      simp only [hd] at hs
      split at hs
      · rename_i htk
        simp only [Option.some.injEq] at hs
        subst hs
        cases hm : s.hub.mode with
        | normal =>
          simp only [Hub.recv, hm]
          cases hq : s.hub.q with
          | nil => rw [forward_nil hq]; exact ⟨by rw [hm]; trivial, List.prefix_refl _, fun _ => by simp [timeouts, hm, rank]⟩
          | cons f q' =>
            rw [forward_cons hq]
            split
            · exact ⟨trivial, List.prefix_refl _, fun _ => by simp [timeouts, rank]⟩
            · split
              · exact ⟨by simp only [hm]; trivial, List.prefix_append _ _, fun _ => by simp [timeouts, hm, rank]⟩
              · exact ⟨by simp only [hm]; trivial, List.prefix_refl _, fun _ => by simp [timeouts, hm, rank]⟩
        | resent n lost =>
          simp only [Hub.recv, hm]
          simp only [Hub.takes, hm] at htk
          cases hq : s.hub.q with
          | nil => simp [hq] at htk
          | cons f q' =>
            simp only [hq, decide_eq_true_eq] at htk
            rw [forward_cons (q' := q') (f := f) rfl]
            split
            · exact ⟨trivial, List.prefix_refl _, fun _ => by simp [timeouts, rank]⟩
            · refine ⟨trivial, List.prefix_append _ _, fun h => ?_⟩
              simp [List.filter_append] at h
        | status n left =>
          rw [hm] at hl
          obtain ⟨l1, l2, l3⟩ := hl
          simp only [Hub.recv, hm]
          split
          · exact ⟨trivial, List.prefix_refl _, fun _ => by simp [timeouts, rank]⟩
          · split
            · exact ⟨trivial, List.prefix_refl _, fun _ => by simp [timeouts, rank]⟩
            · exact ⟨trivial, List.prefix_append _ _, fun _ => by simp [timeouts, rank, Hub.giveUp]⟩
            · split
              · exact ⟨trivial, List.prefix_refl _, fun _ => by simp [timeouts, rank]⟩
              · split
                · exact ⟨l1, List.prefix_refl _, fun _ => by simp [timeouts, rank]⟩
                · exact ⟨l1, List.prefix_refl _, fun _ => by simp [timeouts, rank]⟩
        | stopped => simp [Hub.takes, hm] at htk
        | crashed => simp [Hub.takes, hm] at htk
      · cases hs
  | timeout =>
    simp only [Sys.step] at hs
    split at hs
    · cases hs
    rename_i hnot
    simp only [Option.some.injEq] at hs
    subst hs
    cases hm : s.hub.mode with
    | normal =>
      simp only [Hub.timeout, hm]
      split
      · exact ⟨⟨by omega, by omega, by omega⟩, List.prefix_refl _, fun _ => by simp [timeouts, rank]⟩
      · exact ⟨trivial, List.prefix_refl _, fun _ => by simp [timeouts, rank]⟩
    | status n left =>
      rw [hm] at hl
      obtain ⟨l1, l2, l3⟩ := hl
      simp only [Hub.timeout, hm]
      split
      · exact ⟨trivial, List.prefix_append _ _, fun _ => by simp only [timeouts, rank, Hub.giveUp]; omega⟩
      · exact ⟨⟨l1, by omega, by omega⟩, List.prefix_refl _, fun _ => by simp only [timeouts, rank]; omega⟩
    | resent n lost =>
      rw [hm] at hl
      have l1 : n ≤ 4 := hl
      simp only [Hub.timeout, hm]
      split
      · exact ⟨trivial, List.prefix_append _ _, fun _ => by simp [timeouts, rank, Hub.giveUp]⟩
      · exact ⟨⟨by omega, by omega, by omega⟩, List.prefix_refl _, fun _ => by simp only [timeouts, rank]; omega⟩
    | stopped => exact absurd (.inl hm) hnot
    | crashed => exact absurd (.inr hm) hnot

theorem timeouts_cons (e : Ev) (es : List Ev) : timeouts (e :: es) = timeouts [e] + timeouts es := by
  cases e <;> simp [timeouts]; omega

theorem run_rank (es : List Ev) : ∀ (s s' : Sys σ), Limited s.hub.mode → s.run exec es = some s' →
    Limited s'.hub.mode ∧ s.hub.out <+: s'.hub.out ∧
    ((s'.hub.out.filter (fun m => decide (m.code = 0))).length = (s.hub.out.filter (fun m => decide (m.code = 0))).length →
      rank s'.hub.mode + timeouts es ≤ rank s.hub.mode) := by
  induction es with
  | nil =>
    intro s s' hl h
    simp only [Sys.run, Option.some.injEq] at h
    subst h
    exact ⟨hl, List.prefix_refl _, fun _ => by simp [timeouts]⟩
  | cons e es ih =>
    intro s s' hl h
    simp only [Sys.run] at h
    cases hs : s.step exec e with
    | none => simp [hs] at h
    | some s1 =>
      simp only [hs] at h
      obtain ⟨h1, h2, h3⟩ := step_rank hl hs
      obtain ⟨g1, g2, g3⟩ := ih s1 s' h1 h
      refine ⟨g1, h2.trans g2, fun heq => ?_⟩
      have a1 := (h2.filter (fun m => decide (m.code = 0))).length_le
      have a2 := (g2.filter (fun m => decide (m.code = 0))).length_le
      have b1 := h3 (by omega)
      have b2 := g3 (by omega)
      rw [timeouts_cons]
      omega

/-- **C42, recovery ends.** From any state that can be reached, time runs out at most 31 times without a reply being forwarded: then the
process has stopped (and, by `C42_one_message`, every client has been told). -/
theorem C42_gives_up (t0 : Tgt σ) (absMax : Nat) {es es' : List Ev} {s s' : Sys σ} (hr : (start t0 absMax).run exec es = some s)
    (hr' : s.run exec es' = some s')
    (hno : (s'.hub.out.filter (fun m => decide (m.code = 0))).length = (s.hub.out.filter (fun m => decide (m.code = 0))).length) :
    timeouts es' ≤ 31 := by
  obtain ⟨h1, _, _⟩ := run_rank es _ s (by simp [start, Limited]) hr
  obtain ⟨_, _, g⟩ := run_rank es' s s' h1 hr'
  have := g hno
  have : rank s.hub.mode ≤ 31 := by
    cases hm : s.hub.mode with
    | normal => simp [rank]
    | status n left => rw [hm] at h1; obtain ⟨a, b, c⟩ := h1; simp only [rank]; omega
    | resent n l => simp only [rank]; omega
    | stopped => simp [rank]
    | crashed => simp [rank]
  omega

end

/-! ## A case in which the hypotheses hold, and failures -/

/-- A target that counts: the reply contains the number of packets executed before, and the first byte of the body. -/
def counter (st : Nat) (b : Bytes) : Nat × Bytes := (st + 1, [st, b.headD 0])

/-- Its state when switched on. -/
def fresh : Tgt Nat := ⟨0, [], 2, 0, []⟩

/-- Two clients; the second request and the reply to the first are lost; recovery twice. -/
def demoRun : List Ev :=
  [.request [0x20, 0, 7, 0xf0, 10] 1, .request [0xf0, 8, 0, 0x20, 20] 2, .toTarget 0 (List.replicate 48 0),
   .timeout, .toTarget 2 (List.replicate 48 0), .toHub 1, .toTarget 3 (List.replicate 48 0), .toHub 2,
   .timeout, .toTarget 5 (List.replicate 48 0), .toHub 3, .toTarget 6 (List.replicate 48 0), .toHub 4]

/-- The hypotheses of the theorems above hold for `demoRun` … -/
example : 0 < fresh.depth ∧ 0 + min fresh.depth 16 + 2 * fresh.depth < 65535 ∧ RecentHist fresh ∧ Prompt counter 2 (start fresh 16) demoRun :=
  ⟨by decide, by decide, ⟨by decide, by intro p x h; simp [fresh] at h⟩, by decide +kernel⟩

/-- … at the end of which both packets have been executed once and answered. -/
example : ((start fresh 16).run counter demoRun).map (fun s => (s.hub.out, s.tgt.log, s.hub.q)) =
    some ([⟨1, 0, [0x20, 0, 7, 0xf0, 0, 10]⟩, ⟨2, 0, [0xf0, 8, 0, 0x20, 1, 20]⟩],
      [[0x20, 0, 1, 0xf0, 10], [0xf0, 2, 0, 0x20, 20]], []) := by decide +kernel

/-- A client that hears nothing is told so after six timeouts, the other gets its reply. -/
example : ((start fresh 16).run counter (demoRun.take 8 ++ List.replicate 6 .timeout)).map (fun s => (s.hub.out, s.hub.mode)) =
    some ([⟨1, 0, [0x20, 0, 7, 0xf0, 0, 10]⟩, ⟨2, 3, []⟩], .stopped) := by decide +kernel

/-- **C42 fails across device clients.** A request that is still in the network when the process gives up can be executed after the next
process has started; the next process forwards the reply to its own client, as the reply to a packet that is not executed. -/
theorem C42_violated_restart :
    ∃ (es1 es2 : List Ev) (s1 s2 : Sys Nat),
      (start fresh 1).run counter es1 = some s1 ∧ s1.hub.mode = .stopped ∧ s1.tgt.log = [] ∧
      Sys.run counter { start s1.tgt 1 with toT := s1.toT.map fun d => (0, d.2) } es2 = some s2 ∧
      controlRequests es2 = [([0x20, 0, 9, 0xf0, 99], 2)] ∧
      s2.hub.out = [⟨2, 0, [0x20, 0, 9, 0xf0, 0, 10]⟩] ∧ s2.tgt.log = [[0x20, 0, 1, 0xf0, 10]] := by
  refine ⟨.request [0x20, 0, 7, 0xf0, 10] 1 :: List.replicate 6 .timeout,
    [.request [0x20, 0, 9, 0xf0, 99] 2, .toTarget 0 (List.replicate 48 0), .toHub 0], _, _, rfl, rfl, rfl, rfl, ?_, rfl, rfl⟩
  decide

/-! ### Packet IDs are used again -/

/-- One packet that is sent, executed and answered. -/
def cycle (n : Nat) : List Ev := [.request [0x20, 0, 0, 0xf0, 10] 1, .toTarget n (List.replicate 48 0), .toHub n]

theorem run_append {σ : Type} {exec : σ → Bytes → σ × Bytes} (es es' : List Ev) (s : Sys σ) :
    s.run exec (es ++ es') = (s.run exec es).bind fun s' => s'.run exec es' := by
  induction es generalizing s with
  | nil => rfl
  | cons e es ih =>
    simp only [List.cons_append, Sys.run]
    cases s.step exec e with
    | none => rfl
    | some s1 => exact ih s1

theorem cycles (n : Nat) : ∃ es s, (start fresh 1).run counter es = some s ∧ s.hub.mode = .normal ∧ s.hub.nr = 0 ∧ s.hub.q = [] ∧
    s.hub.maxFl = 1 ∧ s.hub.next = idAt 1 n ∧ s.tgt.expected = idAt 1 n ∧ s.toT.length = n ∧ s.toH.length = n ∧
    s.tgt.log.length = n ∧ s.accepted.length = n ∧ (0 < n → s.toT[0]? = some (1, [0x20, 0, 1, 0xf0, 10])) := by
  induction n with
  | zero => exact ⟨[], _, rfl, rfl, rfl, rfl, rfl, rfl, rfl, rfl, rfl, rfl, rfl, by simp⟩
  | succ n ih =>
    obtain ⟨es, s, hr, hm, hnr, hq, hmax, hnext, hexp, hT, hH, hlog, hacc, hfst⟩ := ih
    let pk : Bytes := pktHeader (idAt 1 n) .big ++ [10]
    let f : Flight := ⟨1, [0x20, 0, 0, 0xf0], pktHeader (idAt 1 n) .big, [10]⟩
    have e1 : s.step counter (.request [0x20, 0, 0, 0xf0, 10] 1) = some { s with
        hub := { s.hub with next := incId s.hub.next, nr := 1, q := [f] }, accepted := s.accepted ++ [f],
        toT := s.toT ++ [(n + 1, pk)] } := by
      simp [Sys.step, hm, hnr, hmax, Hub.sendRequest, parseControl, hq, hnext, f, pk, hacc]
    have hid : headerId pk = some (idAt 1 n) := headerId_pktHeader _ _ _
    have hne : idAt 1 n ≠ 0 := by have := idAt_range 1 n; omega
    have hrecv : ∀ junk, s.tgt.recv counter pk junk = ({ s.tgt with
        last := idAt 1 n, hist := ((idAt 1 n, pktHeader (idAt 1 n) .big ++ [s.tgt.st, 10]) :: s.tgt.hist).take s.tgt.depth,
        st := s.tgt.st + 1, log := s.tgt.log ++ [pk] }, [pktHeader (idAt 1 n) .big ++ [s.tgt.st, 10]]) := by
      intro junk
      simp only [Tgt.recv, hid]
      rw [if_neg (by rw [hexp]; simp)]
      simp [pk, counter, pktHeader, hne]
    let hub1 : Hub := { s.hub with next := incId s.hub.next, nr := 1, q := [f] }
    let rp : Bytes := pktHeader (idAt 1 n) .big ++ [s.tgt.st, 10]
    let t1 : Tgt Nat := { s.tgt with
        last := idAt 1 n, hist := ((idAt 1 n, rp) :: s.tgt.hist).take s.tgt.depth, st := s.tgt.st + 1, log := s.tgt.log ++ [pk] }
    have e2 : Sys.step counter { s with hub := hub1, accepted := s.accepted ++ [f], toT := s.toT ++ [(n + 1, pk)] }
        (.toTarget n (List.replicate 48 0)) = some { s with
          hub := hub1, tgt := t1, accepted := s.accepted ++ [f], toT := s.toT ++ [(n + 1, pk)], toH := s.toH ++ [(n + 1, rp)] } := by
      have hg : (s.toT ++ [(n + 1, pk)])[n]? = some (n + 1, pk) := by rw [← hT]; simp
      simp only [Sys.step, hg, List.length_replicate, if_true, hrecv]
      simp [t1, rp, hacc]
    have e3 : Sys.step counter { s with
          hub := hub1, tgt := t1, accepted := s.accepted ++ [f], toT := s.toT ++ [(n + 1, pk)], toH := s.toH ++ [(n + 1, rp)] }
        (.toHub n) = some { s with
          hub := hub1.forward rp, tgt := t1, accepted := s.accepted ++ [f], toT := s.toT ++ [(n + 1, pk)],
          toH := s.toH ++ [(n + 1, rp)] } := by
      have hg : (s.toH ++ [(n + 1, rp)])[n]? = some (n + 1, rp) := by rw [← hH]; simp
      have hm1 : hub1.mode = .normal := hm
      simp [Sys.step, hg, Hub.takes, hm1, Hub.recv]
    refine ⟨es ++ cycle n, { s with
          hub := hub1.forward rp, tgt := t1, accepted := s.accepted ++ [f], toT := s.toT ++ [(n + 1, pk)],
          toH := s.toH ++ [(n + 1, rp)] }, ?_, ?_⟩
    · rw [run_append, hr]
      simp only [Option.bind_some, cycle]
      rw [run_cons e1, run_cons e2, run_cons e3]
      rfl
    · have hexp' : t1.expected = idAt 1 (n + 1) := by
        rw [← incId_idAt]; exact expected_of_last rfl (idAt_range 1 n).1 (idAt_range 1 n).2
      refine ⟨?_, ?_, ?_, ?_, ?_, hexp', ?_, ?_, ?_, ?_, ?_⟩
      · simp [Hub.forward, hub1, rp, f, pktHeader, hm]
      · simp [Hub.forward, hub1, rp, f, pktHeader]
      · simp [Hub.forward, hub1, rp, f, pktHeader]
      · simp [Hub.forward, hub1, rp, f, pktHeader, hmax]
      · simp [Hub.forward, hub1, rp, f, pktHeader, hnext, incId_idAt]
      · simp [hT]
      · simp [hH]
      · simp [t1, hlog]
      · simp [hacc]
      · intro _
        cases n with
        | zero =>
          have : s.toT = [] := List.length_eq_zero_iff.mp hT
          simp [this, pk, idAt, pktHeader]
        | succ n =>
          exact get_append (hfst (by omega))

/-- **C42 fails if datagrams may be arbitrarily old.** Packet IDs repeat after 65535 packets: a copy of the first packet that arrives
then is executed again, though all packets have been answered. -/
theorem C42_violated_age : ∃ (es : List Ev) (s : Sys Nat), (start fresh 1).run counter es = some s ∧
    s.tgt.log.length = (controlRequests es).length + 1 ∧ s.hub.q = [] := by
  obtain ⟨es, s, hr, hm, hnr, hq, hmax, hnext, hexp, hT, hH, hlog, hacc, hfst⟩ := cycles 65535
  have hf := hfst (by omega)
  have hlen : (controlRequests es).length = 65535 := by
    have := congrArg List.length (run_accepted es _ s hr)
    simp [start] at this
    omega
  have hexp1 : s.tgt.expected = 1 := by rw [hexp]; decide
  refine ⟨es ++ [.toTarget 0 (List.replicate 48 0)],
    { s with tgt := (s.tgt.recv counter [0x20, 0, 1, 0xf0, 10] (List.replicate 48 0)).1,
             toH := s.toH ++ (s.tgt.recv counter [0x20, 0, 1, 0xf0, 10] (List.replicate 48 0)).2.map fun b => (s.accepted.length, b) },
    ?_, ?_, ?_⟩
  · rw [run_append, hr]
    simp only [Option.bind_some, Sys.run, Sys.step, hf, List.length_replicate, if_true]
  · have hc : ∀ es es' : List Ev, controlRequests (es ++ es') = controlRequests es ++ controlRequests es' := by
      intro es es'
      induction es with
      | nil => rfl
      | cons e es ih => rw [List.cons_append, controlRequests_cons, ih, controlRequests_cons e es, List.append_assoc]
    rw [hc]
    simp [Tgt.recv, headerId, hexp1, controlRequests, hlen, hlog]
  · exact hq

end Verif.Hub
