import Verif.Model.Hub
/-!
# Lemmas about the ControlHub: packet IDs, headers, and the invariant of the system
-/

set_option autoImplicit false

namespace Verif.Hub

/-! ## Packet IDs -/

/-- The ID of the `n`-th packet if the first one has ID `b`. -/
def idAt (b n : Nat) : Nat := (b - 1 + n) % 65535 + 1

theorem idAt_zero {b : Nat} (h : 1 ≤ b ∧ b ≤ 65535) : idAt b 0 = b := by simp only [idAt]; omega

theorem idAt_range (b n : Nat) : 1 ≤ idAt b n ∧ idAt b n ≤ 65535 := by simp only [idAt]; omega

theorem incId_idAt (b n : Nat) : incId (idAt b n) = idAt b (n + 1) := by
  unfold incId idAt
  by_cases h : (b - 1 + n) % 65535 + 1 = 65535
  · rw [if_pos h]; omega
  · rw [if_neg h]; omega

theorem decId_idAt (b n : Nat) : decId (idAt b (n + 1)) = idAt b n := by
  unfold decId idAt
  by_cases h : (b - 1 + (n + 1)) % 65535 + 1 = 1
  · rw [if_pos h]; omega
  · rw [if_neg h]; omega

theorem decIdN_idAt (b n k : Nat) : decIdN (idAt b (n + k)) k = idAt b n := by
  induction k with
  | zero => rfl
  | succ k ih => rw [← Nat.add_assoc, decIdN, decId_idAt, ih]

theorem idAt_inj {b i j : Nat} (h : idAt b i = idAt b j) (h1 : i < j + 65535) (h2 : j < i + 65535) : i = j := by
  simp only [idAt] at h; omega

theorem expected_range {σ : Type} (t : Tgt σ) : 1 ≤ t.expected ∧ t.expected ≤ 65535 := by
  simp only [Tgt.expected]; split <;> omega

/-! ## Headers -/

theorem pktHeader_length (id : Nat) (e : Endness) : (pktHeader id e).length = 4 := by cases e <;> rfl

theorem pktHeader_inj {i j : Nat} {e e' : Endness} (h : pktHeader i e = pktHeader j e') : i = j ∧ e = e' := by
  cases e <;> cases e' <;> simp [pktHeader] at h ⊢ <;> omega

theorem headerId_pktHeader (id : Nat) (e : Endness) (r : Bytes) : headerId (pktHeader id e ++ r) = some id := by
  cases e <;> simp [pktHeader, headerId] <;> omega

theorem pktHeader_ne_status (id : Nat) (e : Endness) : pktHeader id e ≠ [0x20, 0, 0, 0xf1] := by
  cases e <;> simp [pktHeader]

theorem pktHeader_ne_v1 (id : Nat) (e : Endness) : pktHeader id e ≠ [0xfc, 0, 0, 0x10] := by
  cases e <;> simp [pktHeader]

theorem resendPkt_pktHeader (id : Nat) (e : Endness) : resendPkt (pktHeader id e) = [0x20, id / 256, id % 256, 0xf2] := by
  cases e <;> simp [pktHeader, resendPkt]

theorem status_take {σ : Type} (t : Tgt σ) (junk : Bytes) : (t.status junk).take 4 = [0x20, 0, 0, 0xf1] := rfl

theorem parseStatus_status {σ : Type} (t : Tgt σ) (junk : Bytes) (h : junk.length = 48) :
    parseStatus (t.status junk) = .next t.expected := by
  have h1 : (t.status junk).length = 64 := by simp [Tgt.status, h]
  have h2 : t.status junk ≠ statusReq := by
    intro e
    have := congrArg (fun l : Bytes => l[12]?) e
    simp [Tgt.status, statusReq] at this
  have h3 : (t.status junk).drop 12 = 0x20 :: t.expected / 256 :: t.expected % 256 :: 0xf0 :: junk := by
    simp [Tgt.status]
  simp only [parseStatus, h1, h2, h3]
  simp
  omega

/-! ## What the target does with the packets it executes -/

/-- State of the hardware after some bodies. -/
def final {σ : Type} (exec : σ → Bytes → σ × Bytes) (st : σ) : List Bytes → σ
  | [] => st
  | b :: bs => final exec (exec st b).1 bs

/-- The replies to them. -/
def replies {σ : Type} (exec : σ → Bytes → σ × Bytes) (st : σ) : List Bytes → List Bytes
  | [] => []
  | b :: bs => (exec st b).2 :: replies exec (exec st b).1 bs

section
variable {σ : Type} (exec : σ → Bytes → σ × Bytes)

theorem final_snoc (st : σ) (bs : List Bytes) (b : Bytes) : final exec st (bs ++ [b]) = (exec (final exec st bs) b).1 := by
  induction bs generalizing st with
  | nil => rfl
  | cons x xs ih => simpa [final] using ih _

theorem replies_snoc (st : σ) (bs : List Bytes) (b : Bytes) :
    replies exec st (bs ++ [b]) = replies exec st bs ++ [(exec (final exec st bs) b).2] := by
  induction bs generalizing st with
  | nil => rfl
  | cons x xs ih => simpa [final, replies] using ih _

theorem replies_length (st : σ) (bs : List Bytes) : (replies exec st bs).length = bs.length := by
  induction bs generalizing st with
  | nil => rfl
  | cons x xs ih => simp [replies, ih]

/-! ## The invariant -/

/-- The reply bodies to the first `e` of the packets `acc`. -/
def reps (t0 : Tgt σ) (acc : List Flight) (e : Nat) : List Bytes := replies exec t0.st ((acc.take e).map (·.body))

/-- The messages with which the first `lo` packets are answered. -/
def answers (t0 : Tgt σ) (acc : List Flight) (e lo : Nat) : List Msg :=
  ((acc.zip (reps exec t0 acc e)).take lo).map fun x => ⟨x.1.pid, 0, x.1.orig ++ x.2⟩

/-- Invariant: `lo` packets have been answered, `e` executed. -/
structure Inv (t0 : Tgt σ) (w : Nat) (s : Sys σ) (lo e : Nat) : Prop where
  hdrs : ∀ k f, s.accepted[k]? = some f → ∃ en, f.hdr = pktHeader (idAt t0.expected k) en
  next : s.hub.next = idAt t0.expected s.accepted.length
  q : s.hub.q = s.accepted.drop lo
  loe : lo ≤ e
  ea : e ≤ s.accepted.length
  nr : s.hub.nr + lo = s.accepted.length
  win : s.accepted.length ≤ lo + w
  maxFl : s.hub.maxFl = w
  depth : s.tgt.depth = t0.depth
  exp : s.tgt.expected = idAt t0.expected e
  log : s.tgt.log = t0.log ++ (s.accepted.take e).map Flight.sent
  st : s.tgt.st = final exec t0.st ((s.accepted.take e).map (·.body))
  histLen : s.tgt.hist.length ≤ t0.depth ∧ min e t0.depth ≤ s.tgt.hist.length
  histNew : ∀ p x, s.tgt.hist[p]? = some x → p < e →
    ∃ f r, s.accepted[e - 1 - p]? = some f ∧ (reps exec t0 s.accepted e)[e - 1 - p]? = some r ∧
      x = (idAt t0.expected (e - 1 - p), f.hdr ++ r)
  histOld : ∀ p x, s.tgt.hist[p]? = some x → e ≤ p → x.1 = 0 ∨ ∃ m, 1 ≤ m ∧ m ≤ p - e + 1 ∧ x.1 = idAt t0.expected (65535 - m)
  toT : ∀ d ∈ s.toT, d.1 ≤ s.accepted.length ∧ (d.2 = statusReq ∨ ∃ k f, s.accepted[k]? = some f ∧ k < d.1 ∧ d.1 ≤ k + w ∧
    (d.2 = f.sent ∨ d.2 = resendPkt f.hdr))
  toH : ∀ d ∈ s.toH, d.1 ≤ s.accepted.length ∧ ((∃ (t : Tgt σ) (junk : Bytes), junk.length = 48 ∧ d.2 = t.status junk) ∨
    ∃ k f r, s.accepted[k]? = some f ∧ (reps exec t0 s.accepted e)[k]? = some r ∧ k < e ∧ d.1 ≤ k + w + t0.depth ∧ d.2 = f.hdr ++ r)
  out : s.hub.out.filter (fun m => decide (m.code = 0)) = answers exec t0 s.accepted e lo
  mode : s.hub.mode ≠ .crashed ∧ (s.hub.mode ≠ .normal → s.hub.mode ≠ .stopped → lo < s.accepted.length)

/-- The replies kept by the target at the start are to the packets immediately before (or to packets with ID 0). -/
def RecentHist (t : Tgt σ) : Prop :=
  t.hist.length ≤ t.depth ∧ ∀ p x, t.hist[p]? = some x → x.1 = 0 ∨ ∃ m, 1 ≤ m ∧ m ≤ p + 1 ∧ x.1 = idAt t.expected (65535 - m)

theorem Inv.start (t0 : Tgt σ) (absMax : Nat) (h : RecentHist t0) : Inv exec t0 (min t0.depth absMax) (start t0 absMax) 0 0 where
  hdrs := by intro k f hk; simp [Hub.start] at hk
  next := by simp [Hub.start, idAt_zero (expected_range t0)]
  q := rfl
  loe := Nat.le_refl _
  ea := Nat.zero_le _
  nr := rfl
  win := Nat.zero_le _
  maxFl := rfl
  depth := rfl
  exp := by simp [Hub.start, idAt_zero (expected_range t0)]
  log := by simp [Hub.start]
  st := rfl
  histLen := ⟨h.1, by simp⟩
  histNew := by intro p x _ hp; omega
  histOld := by intro p x hx _; exact h.2 p x hx
  toT := by intro d hd; simp [Hub.start] at hd
  toH := by intro d hd; simp [Hub.start] at hd
  out := by simp [Hub.start, answers]
  mode := by simp [Hub.start]

variable {exec}

theorem reps_length {t0 : Tgt σ} {acc : List Flight} {e : Nat} (h : e ≤ acc.length) : (reps exec t0 acc e).length = e := by
  simp [reps, replies_length, h]

theorem reps_append {t0 : Tgt σ} {acc more : List Flight} {e : Nat} (h : e ≤ acc.length) :
    reps exec t0 (acc ++ more) e = reps exec t0 acc e := by
  simp [reps, List.take_append_of_le_length h]

theorem take_succ_get {α : Type} {l : List α} {n : Nat} {x : α} (h : l[n]? = some x) : l.take (n + 1) = l.take n ++ [x] := by
  rw [List.take_add_one, h]; rfl

theorem reps_succ {t0 : Tgt σ} {acc : List Flight} {e : Nat} {f : Flight} (h : acc[e]? = some f) :
    reps exec t0 acc (e + 1) = reps exec t0 acc e ++ [(exec (final exec t0.st ((acc.take e).map (·.body))) f.body).2] := by
  simp only [reps, take_succ_get h, List.map_append, List.map_cons, List.map_nil, replies_snoc]

theorem lt_of_get {α : Type} {l : List α} {n : Nat} {x : α} (h : l[n]? = some x) : n < l.length :=
  (List.getElem?_eq_some_iff.mp h).1

theorem get_append {α : Type} {l m : List α} {n : Nat} {x : α} (h : l[n]? = some x) : (l ++ m)[n]? = some x := by
  rw [List.getElem?_append_left (lt_of_get h)]; exact h

theorem zip_take_append {α β : Type} (a a' : List α) (b b' : List β) (n : Nat) (ha : n ≤ a.length) (hb : n ≤ b.length) :
    ((a ++ a').zip (b ++ b')).take n = (a.zip b).take n := by
  induction n generalizing a b with
  | zero => rfl
  | succ n ih =>
    cases a with
    | nil => simp at ha
    | cons x xs =>
      cases b with
      | nil => simp at hb
      | cons y ys =>
        simp only [List.cons_append, List.zip_cons_cons, List.take_succ_cons]
        rw [ih xs ys (by simpa using ha) (by simpa using hb)]

theorem answers_grow {t0 : Tgt σ} {acc more : List Flight} {e lo : Nat} (h : e ≤ acc.length) (hl : lo ≤ e) :
    answers exec t0 (acc ++ more) e lo = answers exec t0 acc e lo := by
  have := zip_take_append acc more (reps exec t0 acc e) [] lo (by omega) (by rw [reps_length h]; exact hl)
  simp only [List.append_nil] at this
  simp only [answers, reps_append h, this]

theorem answers_exec {t0 : Tgt σ} {acc : List Flight} {e lo : Nat} (h : e < acc.length) (hl : lo ≤ e) :
    answers exec t0 acc (e + 1) lo = answers exec t0 acc e lo := by
  have hg : acc[e]? = some acc[e] := List.getElem?_eq_getElem h
  have := zip_take_append acc [] (reps exec t0 acc e)
    [(exec (final exec t0.st ((acc.take e).map (·.body))) acc[e].body).2] lo (by omega)
    (by rw [reps_length (Nat.le_of_lt h)]; exact hl)
  simp only [List.append_nil] at this
  simp only [answers, reps_succ hg, this]

theorem answers_succ {t0 : Tgt σ} {acc : List Flight} {e lo : Nat} {f : Flight} {r : Bytes} (hf : acc[lo]? = some f)
    (hr : (reps exec t0 acc e)[lo]? = some r) :
    answers exec t0 acc e (lo + 1) = answers exec t0 acc e lo ++ [⟨f.pid, 0, f.orig ++ r⟩] := by
  have hz : (acc.zip (reps exec t0 acc e))[lo]? = some (f, r) := by
    rw [List.getElem?_zip_eq_some]; exact ⟨hf, hr⟩
  simp only [answers, take_succ_get hz, List.map_append, List.map_cons, List.map_nil]

/-! ### Requests -/

theorem Inv.request {t0 : Tgt σ} {w : Nat} {s s' : Sys σ} {lo e : Nat} (h : Inv exec t0 w s lo e) {pkt : Bytes} {pid : Nat}
    (hs : s.step exec (.request pkt pid) = some s') : Inv exec t0 w s' lo e := by
  simp only [Sys.step] at hs
  split at hs
  · rename_i hc
    simp only [Option.some.injEq] at hs
    subst hs
    simp only [Hub.sendRequest]
    split
    · rename_i en hpc
      simp only [List.drop_left, List.map_cons, List.map_nil, List.length_append, List.length_cons, List.length_nil]
      have hnr := h.nr
      have hmax := h.maxFl
      constructor
      · intro k f hk
        rcases Nat.lt_or_ge k s.accepted.length with hlt | hge
        · exact h.hdrs k f (by rwa [List.getElem?_append_left hlt] at hk)
        · rw [List.getElem?_append_right hge] at hk
          have hk0 : k - s.accepted.length = 0 := by
            have := lt_of_get hk; simp at this; omega
          rw [hk0] at hk
          simp at hk
          subst hk
          refine ⟨en, ?_⟩
          have : k = s.accepted.length := by omega
          rw [this, ← h.next]
      · simp only [h.next, incId_idAt, List.length_append, List.length_cons, List.length_nil]
      · simp only [h.q]
        rw [List.drop_append_of_le_length (by have := h.loe; have := h.ea; omega)]
      · exact h.loe
      · have := h.ea; simp only [List.length_append, List.length_cons, List.length_nil]; omega
      · simp only [List.length_append, List.length_cons, List.length_nil]; omega
      · simp only [List.length_append, List.length_cons, List.length_nil]; omega
      · exact h.maxFl
      · exact h.depth
      · exact h.exp
      · rw [List.take_append_of_le_length h.ea]; exact h.log
      · rw [List.take_append_of_le_length h.ea]; exact h.st
      · exact h.histLen
      · intro p x hx hp
        obtain ⟨f, r, h1, h2, h3⟩ := h.histNew p x hx hp
        exact ⟨f, r, get_append h1, by rw [reps_append h.ea]; exact h2, h3⟩
      · exact h.histOld
      · intro d hd
        rcases List.mem_append.mp hd with hd | hd
        · obtain ⟨h1, h2⟩ := h.toT d hd
          refine ⟨by simp; omega, ?_⟩
          rcases h2 with h2 | ⟨k, f, h3, h4⟩
          · exact .inl h2
          · exact .inr ⟨k, f, get_append h3, h4⟩
        · simp only [List.mem_singleton] at hd
          subst hd
          refine ⟨by simp, .inr ⟨s.accepted.length, _, List.getElem?_concat_length, by simp, ?_, .inl rfl⟩⟩
          simp only; omega
      · intro d hd
        obtain ⟨h1, h2⟩ := h.toH d hd
        refine ⟨by simp; omega, ?_⟩
        rcases h2 with h2 | ⟨k, f, r, h3, h4, h5⟩
        · exact .inl h2
        · exact .inr ⟨k, f, r, get_append h3, by rw [reps_append h.ea]; exact h4, h5⟩
      · rw [answers_grow h.ea h.loe]; exact h.out
      · have := h.mode
        refine ⟨this.1, fun h1 h2 => ?_⟩
        exact absurd hc.1 h1
    · simp only [List.drop_length, List.append_nil, List.map_nil]
      exact ⟨h.hdrs, h.next, h.q, h.loe, h.ea, h.nr, h.win, h.maxFl, h.depth, h.exp, h.log, h.st, h.histLen, h.histNew, h.histOld,
        h.toT, h.toH, by simpa [List.filter_append] using h.out, h.mode⟩
  · cases hs

/-! ### Datagrams arriving at the target -/

theorem expected_of_last {t : Tgt σ} {id : Nat} (h : t.last = id) (h1 : 1 ≤ id) (h2 : id ≤ 65535) : t.expected = incId id := by
  simp only [Tgt.expected, incId, h]; split <;> split <;> omega

theorem Inv.toTarget {t0 : Tgt σ} {w l : Nat} {s s' : Sys σ} {lo e : Nat} (h : Inv exec t0 w s lo e) {i : Nat} {junk : Bytes}
    (hb : l + w + 2 * t0.depth < 65535) (hfr : ∀ d, s.toT[i]? = some d → s.accepted.length ≤ d.1 + l)
    (hs : s.step exec (.toTarget i junk) = some s') : ∃ e', Inv exec t0 w s' lo e' := by
  simp only [Sys.step] at hs
  cases hd : s.toT[i]? with
  | none => simp [hd] at hs
  | some d =>
  simp only [hd] at hs
  split at hs
  · rename_i hj
    simp only [Option.some.injEq] at hs
    subst hs
    obtain ⟨hda, hdc⟩ := h.toT d (List.mem_of_getElem? hd)
    have hfresh := hfr d hd
    have same : ∀ ds : List Bytes, (∀ b ∈ ds, ((∃ (t : Tgt σ) (junk : Bytes), junk.length = 48 ∧ b = t.status junk) ∨
        ∃ k f r, s.accepted[k]? = some f ∧ (reps exec t0 s.accepted e)[k]? = some r ∧ k < e ∧
          s.accepted.length ≤ k + w + t0.depth ∧ b = f.hdr ++ r)) →
        Inv exec t0 w { s with toH := s.toH ++ ds.map fun b => (s.accepted.length, b) } lo e := by
      intro ds hds
      refine ⟨h.hdrs, h.next, h.q, h.loe, h.ea, h.nr, h.win, h.maxFl, h.depth, h.exp, h.log, h.st, h.histLen, h.histNew, h.histOld,
        h.toT, ?_, h.out, h.mode⟩
      intro x hx
      rcases List.mem_append.mp hx with hx | hx
      · exact h.toH x hx
      · obtain ⟨b, hb, rfl⟩ := List.mem_map.mp hx
        exact ⟨Nat.le_refl _, hds b hb⟩
    have nothing : Inv exec t0 w { s with toH := s.toH ++ ([] : List Bytes).map fun b => (s.accepted.length, b) } lo e :=
      same [] (by simp)
    rcases hdc with hst | ⟨k, f, hk, hkd, hdk, hsent | hres⟩
    · -- status request
      refine ⟨e, ?_⟩
      have : s.tgt.recv exec d.2 junk = (s.tgt, [s.tgt.status junk]) := by
        rw [hst]; simp [Tgt.recv, statusReq, headerId]
      rw [this]
      exact same _ (by intro b hb; simp at hb; subst hb; exact .inl ⟨_, _, hj, rfl⟩)
    · -- control packet
      obtain ⟨en, hen⟩ := h.hdrs k f hk
      have hid : headerId d.2 = some (idAt t0.expected k) := by
        rw [hsent, Flight.sent, hen, headerId_pktHeader]
      have hpos := idAt_range t0.expected k
      by_cases hke : idAt t0.expected k = s.tgt.expected
      · have heq : k = e := by
          rw [h.exp] at hke
          have h1 := h.win; have h2 := h.loe; have h3 := h.ea
          have h4 := lt_of_get hk
          exact idAt_inj hke (by omega) (by omega)
        subst heq
        have hke' := lt_of_get hk
        have ht4 : d.2.take 4 = f.hdr := by
          rw [hsent, Flight.sent, List.take_append_of_le_length (by rw [hen, pktHeader_length]; exact Nat.le_refl _)]
          rw [List.take_of_length_le (by rw [hen, pktHeader_length]; exact Nat.le_refl _)]
        have hd4 : d.2.drop 4 = f.body := by
          rw [hsent, Flight.sent, List.drop_append_of_le_length (by rw [hen, pktHeader_length]; exact Nat.le_refl _)]
          rw [List.drop_of_length_le (by rw [hen, pktHeader_length]; exact Nat.le_refl _)]; rfl
        refine ⟨k + 1, ?_⟩
        simp only [Tgt.recv, hid, hke]
        rw [if_neg (by simp)]
        simp only [ht4, hd4]
        have hne : idAt t0.expected k ≠ 0 := by omega
        rw [← hke]
        simp only [hne, if_false]
        have hst := h.st
        have hreps := reps_succ (exec := exec) (t0 := t0) hk
        rw [← hst] at hreps
        have hlen := reps_length (exec := exec) (t0 := t0) h.ea
        have hnewr : (reps exec t0 s.accepted (k + 1))[k]? = some (exec s.tgt.st f.body).2 := by
          rw [hreps, List.getElem?_append_right (by omega)]; simp [hlen]
        have holdr : ∀ (j : Nat) (r : Bytes), (reps exec t0 s.accepted k)[j]? = some r → (reps exec t0 s.accepted (k + 1))[j]? = some r := by
          intro j r hjr; rw [hreps]; exact get_append hjr
        constructor
        · exact h.hdrs
        · exact h.next
        · exact h.q
        · have := h.loe; omega
        · exact hke'
        · exact h.nr
        · exact h.win
        · exact h.maxFl
        · exact h.depth
        · have := expected_of_last (t := { s.tgt with last := idAt t0.expected k }) rfl hpos.1 hpos.2
          rw [incId_idAt] at this
          exact this
        · simp only [h.log, take_succ_get hk, List.map_append, List.map_cons, List.map_nil, List.append_assoc, hsent]
        · simp only [take_succ_get hk, List.map_append, List.map_cons, List.map_nil, final_snoc, ← hst]
        · have h1 := h.histLen
          have h2 := h.depth
          simp only [List.length_take, List.length_cons, h2]
          omega
        · intro p x hx hp
          rw [List.getElem?_take] at hx
          split at hx
          · cases p with
            | zero =>
              simp at hx
              subst hx
              exact ⟨f, _, by simpa using hk, by simpa using hnewr, by simp⟩
            | succ p =>
              simp at hx
              obtain ⟨f', r', g1, g2, g3⟩ := h.histNew p x hx (by omega)
              have hsub : k + 1 - 1 - (p + 1) = k - 1 - p := by omega
              rw [hsub]
              exact ⟨f', r', g1, holdr _ _ g2, g3⟩
          · cases hx
        · intro p x hx hp
          rw [List.getElem?_take] at hx
          split at hx
          · cases p with
            | zero => omega
            | succ p =>
              simp at hx
              have := h.histOld p x hx (by omega)
              have hsub : p + 1 - (k + 1) + 1 = p - k + 1 := by omega
              rw [hsub]; exact this
          · cases hx
        · exact h.toT
        · intro x hx
          rcases List.mem_append.mp hx with hx | hx
          · obtain ⟨h1, h2⟩ := h.toH x hx
            refine ⟨h1, ?_⟩
            rcases h2 with h2 | ⟨j, f', r, h3, h4, h5, h6⟩
            · exact .inl h2
            · exact .inr ⟨j, f', r, h3, holdr _ _ h4, by omega, h6⟩
          · simp only [List.map_cons, List.map_nil, List.mem_singleton] at hx
            subst hx
            refine ⟨Nat.le_refl _, .inr ⟨k, f, _, hk, hnewr, by omega, ?_, rfl⟩⟩
            have h1 := h.win; have h2 := h.loe; simp only; omega
        · rw [answers_exec hke' h.loe]; exact h.out
        · exact h.mode
      · refine ⟨e, ?_⟩
        have : s.tgt.recv exec d.2 junk = (s.tgt, []) := by
          simp only [Tgt.recv, hid]
          rw [if_pos ⟨by omega, hke⟩]
        rw [this]
        exact nothing
    · -- request to send a reply again
      refine ⟨e, ?_⟩
      obtain ⟨en, hen⟩ := h.hdrs k f hk
      rw [hen, resendPkt_pktHeader] at hres
      have hrecv : s.tgt.recv exec d.2 junk =
          match s.tgt.hist.find? (fun x => decide (x.1 = idAt t0.expected k)) with
          | some x => (s.tgt, [x.2])
          | none => (s.tgt, []) := by
        rw [hres]
        have hsum : idAt t0.expected k / 256 * 256 + idAt t0.expected k % 256 = idAt t0.expected k := by omega
        simp [Tgt.recv, headerId, hsum]
        cases s.tgt.hist.find? (fun x => decide (x.1 = idAt t0.expected k)) <;> rfl
      rw [hrecv]
      cases hf : s.tgt.hist.find? (fun x => decide (x.1 = idAt t0.expected k)) with
      | none => exact nothing
      | some x =>
        have hxid : x.1 = idAt t0.expected k := by simpa using List.find?_some hf
        obtain ⟨p, hp⟩ := List.getElem?_of_mem (List.mem_of_find?_eq_some hf)
        have hplen := lt_of_get hp
        have hhl := h.histLen
        refine same _ ?_
        intro b hbm
        simp only [List.mem_singleton] at hbm
        subst hbm
        right
        rcases Nat.lt_or_ge p e with hpe | hpe
        · obtain ⟨f', r, g1, g2, g3⟩ := h.histNew p x hp hpe
          refine ⟨e - 1 - p, f', r, g1, g2, by omega, ?_, by rw [g3]⟩
          have h1 := h.win; have h2 := h.loe; omega
        · exfalso
          have hpos := idAt_range t0.expected k
          rcases h.histOld p x hp hpe with h0 | ⟨m, hm1, hm2, hm3⟩
          · omega
          · rw [hxid] at hm3
            have h1 := h.win; have h2 := h.loe; have h4 := lt_of_get hk
            have := idAt_inj hm3 (by omega) (by omega)
            omega
  · cases hs

/-! ### Datagrams arriving at the hub -/

/-- Steps of the hub in which nothing is answered. -/
theorem Inv.idle {t0 : Tgt σ} {w : Nat} {s : Sys σ} {lo e : Nat} (h : Inv exec t0 w s lo e) {m : Mode} {more : List Msg}
    {ds : List Bytes} (hmore : ∀ x ∈ more, x.code ≠ 0)
    (hm : m ≠ .crashed ∧ (m ≠ .normal → m ≠ .stopped → lo < s.accepted.length))
    (hds : ∀ b ∈ ds, b = statusReq ∨ ∃ k f, s.accepted[k]? = some f ∧ lo ≤ k ∧ (b = f.sent ∨ b = resendPkt f.hdr)) :
    Inv exec t0 w { s with hub := { s.hub with mode := m, out := s.hub.out ++ more },
                           toT := s.toT ++ ds.map fun b => (s.accepted.length, b) } lo e := by
  refine ⟨h.hdrs, h.next, h.q, h.loe, h.ea, h.nr, h.win, h.maxFl, h.depth, h.exp, h.log, h.st, h.histLen, h.histNew, h.histOld,
    ?_, h.toH, ?_, hm⟩
  · intro d hd
    rcases List.mem_append.mp hd with hd | hd
    · exact h.toT d hd
    · obtain ⟨b, hb, rfl⟩ := List.mem_map.mp hd
      refine ⟨Nat.le_refl _, ?_⟩
      rcases hds b hb with h1 | ⟨k, f, h1, h2, h3⟩
      · exact .inl h1
      · refine .inr ⟨k, f, h1, lt_of_get h1, ?_, h3⟩
        have := h.win; simp only; omega
  · have hnil : more.filter (fun m => decide (m.code = 0)) = [] := by
      rw [List.filter_eq_nil_iff]; intro x hx; simpa using hmore x hx
    simp only [List.filter_append, hnil, List.append_nil]
    exact h.out

theorem Inv.flight {t0 : Tgt σ} {w : Nat} {s : Sys σ} {lo e : Nat} (h : Inv exec t0 w s lo e) {f : Flight} (hf : f ∈ s.hub.q) :
    ∃ k, s.accepted[k]? = some f ∧ lo ≤ k := by
  rw [h.q] at hf
  obtain ⟨p, hp⟩ := List.getElem?_of_mem hf
  rw [List.getElem?_drop] at hp
  exact ⟨lo + p, hp, by omega⟩

theorem forward_nil {h : Hub} {p : Bytes} (hq : h.q = []) : h.forward p = h := by simp only [Hub.forward, hq]

theorem forward_cons {h : Hub} {p : Bytes} {f : Flight} {q' : List Flight} (hq : h.q = f :: q') :
    h.forward p = if p.length < 4 then { h with mode := .crashed }
      else if p.take 4 = f.hdr then
        { h with nr := h.nr - 1, q := q', out := h.out ++ [⟨f.pid, 0, f.orig ++ p.drop 4⟩] }
      else h := by simp only [Hub.forward, hq]

/-- `forward_reply`. -/
theorem Inv.forward {t0 : Tgt σ} {w l : Nat} {s : Sys σ} {lo e : Nat} (h : Inv exec t0 w s lo e)
    (hb : l + w + 2 * t0.depth < 65535) {d : Nat × Bytes} (hd : d ∈ s.toH) (hfr : s.accepted.length ≤ d.1 + l) :
    ∃ lo', Inv exec t0 w { s with hub := ({ s.hub with mode := .normal } : Hub).forward d.2 } lo' e := by
  have base : Inv exec t0 w { s with hub := { s.hub with mode := .normal } } lo e := by
    have := h.idle (m := .normal) (more := []) (ds := []) (by simp) (by simp) (by simp)
    simpa using this
  cases hq : s.hub.q with
  | nil => rw [forward_nil (h := { s.hub with mode := .normal }) hq]; exact ⟨lo, base⟩
  | cons g q' =>
    rw [forward_cons (h := { s.hub with mode := .normal }) hq]
    have hg : s.accepted[lo]? = some g := by
      have := h.q
      rw [hq] at this
      have h0 : (s.accepted.drop lo)[0]? = some g := by rw [← this]; rfl
      simpa [List.getElem?_drop] using h0
    obtain ⟨en, hen⟩ := h.hdrs lo g hg
    obtain ⟨hda, hdc⟩ := h.toH d hd
    rcases hdc with ⟨t, junk, hj, hst⟩ | ⟨k, f, r, hk, hr, hke, hdk, hpk⟩
    · have hlen : ¬ d.2.length < 4 := by rw [hst]; simp [Tgt.status]
      have hne : ¬ d.2.take 4 = g.hdr := by
        rw [hst, status_take, hen]; exact fun e => pktHeader_ne_status _ _ e.symm
      rw [if_neg hlen, if_neg hne]
      exact ⟨lo, base⟩
    · obtain ⟨en', hen'⟩ := h.hdrs k f hk
      have hl4 : f.hdr.length = 4 := by rw [hen', pktHeader_length]
      have hlen : ¬ d.2.length < 4 := by rw [hpk]; simp [hl4]
      have ht : d.2.take 4 = f.hdr := by
        rw [hpk, List.take_append_of_le_length (by omega), List.take_of_length_le (by omega)]
      have hdrop : d.2.drop 4 = r := by
        rw [hpk, List.drop_append_of_le_length (by omega), List.drop_of_length_le (by omega)]; rfl
      rw [if_neg hlen, ht, hdrop]
      by_cases heq : f.hdr = g.hdr
      · rw [if_pos heq]
        rw [hen, hen'] at heq
        have hkl : k = lo := by
          have h1 := h.win; have h2 := h.loe; have h3 := h.ea; have h4 := lt_of_get hk
          exact idAt_inj (pktHeader_inj heq).1 (by omega) (by omega)
        subst hkl
        have hfg : f = g := by rw [hk] at hg; exact Option.some.inj hg
        subst hfg
        refine ⟨k + 1, ?_⟩
        have hnr := h.nr
        have hlt := lt_of_get hk
        refine ⟨h.hdrs, h.next, ?_, by omega, h.ea, by simp only; omega, by have := h.win; simp only; omega, h.maxFl, h.depth, h.exp, h.log,
          h.st, h.histLen, h.histNew, h.histOld, h.toT, h.toH, ?_, by simp⟩
        · have := h.q
          rw [hq] at this
          have h5 := congrArg List.tail this
          simp only [List.tail_cons, List.tail_drop] at h5
          exact h5
        · simp only [List.filter_append, h.out, answers_succ hk hr]
          simp
      · rw [if_neg heq]
        exact ⟨lo, base⟩

theorem Inv.toHub {t0 : Tgt σ} {w l : Nat} {s s' : Sys σ} {lo e : Nat} (h : Inv exec t0 w s lo e) {i : Nat}
    (hb : l + w + 2 * t0.depth < 65535) (hfr : ∀ d, s.toH[i]? = some d → s.accepted.length ≤ d.1 + l)
    (hs : s.step exec (.toHub i) = some s') : ∃ lo', Inv exec t0 w s' lo' e := by
  simp only [Sys.step] at hs
  cases hd : s.toH[i]? with
  | none => simp [hd] at hs
  | some d =>
  simp only [hd] at hs
  split at hs
  · rename_i htakes
    simp only [Option.some.injEq] at hs
    subst hs
    have hmem := List.mem_of_getElem? hd
    have hfresh := hfr d hd
    cases hm : s.hub.mode with
    | normal =>
      simp only [Hub.recv, hm, List.map_nil, List.append_nil]
      have := h.forward hb hmem hfresh
      have hsame : ({ s.hub with mode := .normal } : Hub) = s.hub := by rw [← hm]
      rw [hsame] at this
      exact this
    | status n left =>
      simp only [Hub.takes, hm] at htakes
      obtain ⟨hda, hdc⟩ := h.toH d hmem
      rcases hdc with ⟨t, junk, hj, hst⟩ | ⟨k, f, r, hk, hr, hke, hdk, hpk⟩
      · have h1 : ¬ d.2.take 4 = [0xfc, 0, 0, 0x10] := by rw [hst, status_take]; decide
        have hlt := h.mode.2 (by rw [hm]; simp) (by rw [hm]; simp)
        have hqne : s.hub.q ≠ [] := by
          rw [h.q]; intro e0
          have := congrArg List.length e0
          simp at this; omega
        simp only [Hub.recv, hm]
        rw [if_neg h1]
        simp only [hst, parseStatus_status t junk hj]
        rw [if_neg hqne]
        refine ⟨lo, ?_⟩
        split
        · have := h.idle (m := .resent n true) (more := []) (ds := s.hub.q.map Flight.sent) (by simp)
            (by simp [hlt]) (by
              intro b hb
              obtain ⟨f, hf, rfl⟩ := List.mem_map.mp hb
              obtain ⟨k, hk, hlo⟩ := h.flight hf
              exact .inr ⟨k, f, hk, hlo, .inl rfl⟩)
          simpa using this
        · have := h.idle (m := .resent n false) (more := []) (ds := s.hub.q.map fun f => resendPkt f.hdr) (by simp)
            (by simp [hlt]) (by
              intro b hb
              obtain ⟨f, hf, rfl⟩ := List.mem_map.mp hb
              obtain ⟨k, hk, hlo⟩ := h.flight hf
              exact .inr ⟨k, f, hk, hlo, .inr rfl⟩)
          simpa using this
      · exfalso
        obtain ⟨en', hen'⟩ := h.hdrs k f hk
        have hl4 : f.hdr.length = 4 := by rw [hen', pktHeader_length]
        have ht : d.2.take 4 = f.hdr := by
          rw [hpk, List.take_append_of_le_length (by omega), List.take_of_length_le (by omega)]
        rw [ht, hen'] at htakes
        simp [pktHeader_ne_status, pktHeader_ne_v1] at htakes
    | resent n lost =>
      simp only [Hub.recv, hm, List.map_nil, List.append_nil]
      exact h.forward hb hmem hfresh
    | stopped => simp [Hub.takes, hm] at htakes
    | crashed => exact absurd hm h.mode.1
  · cases hs

/-! ### Time running out -/

theorem Inv.timeout {t0 : Tgt σ} {w : Nat} {s s' : Sys σ} {lo e : Nat} (h : Inv exec t0 w s lo e) (hw : 0 < w)
    (hs : s.step exec .timeout = some s') : Inv exec t0 w s' lo e := by
  simp only [Sys.step] at hs
  split at hs
  · cases hs
  rename_i hnot
  simp only [Option.some.injEq] at hs
  subst hs
  have stat : ∀ b ∈ [statusReq], b = statusReq ∨ ∃ k f, s.accepted[k]? = some f ∧ lo ≤ k ∧ (b = f.sent ∨ b = resendPkt f.hdr) := by
    intro b hb; simp at hb; exact .inl hb
  have give : ∀ code, code ≠ 0 → Inv exec t0 w { s with hub := s.hub.giveUp code, toT := s.toT ++ ([] : List Bytes).map fun b => (s.accepted.length, b) } lo e := by
    intro code hc
    exact h.idle (m := .stopped) (more := s.hub.q.map fun f => ⟨f.pid, code, []⟩) (ds := [])
      (by intro x hx; obtain ⟨f, _, rfl⟩ := List.mem_map.mp hx; exact hc) (by simp) (by simp)
  cases hm : s.hub.mode with
  | normal =>
    simp only [Hub.timeout, hm]
    split
    · rename_i hnr
      have hlt : lo < s.accepted.length := by
        have h1 := h.nr; have h2 := h.maxFl; omega
      have := h.idle (m := .status 0 5) (more := []) (ds := [statusReq]) (by simp) (by simp [hlt]) stat
      simpa using this
    · have := h.idle (m := .stopped) (more := []) (ds := []) (by simp) (by simp) (by simp)
      simpa using this
  | status n left =>
    have hlt := h.mode.2 (by rw [hm]; simp) (by rw [hm]; simp)
    simp only [Hub.timeout, hm]
    split
    · exact give 3 (by decide)
    · have := h.idle (m := .status n (left - 1)) (more := []) (ds := [statusReq]) (by simp) (by simp [hlt]) stat
      simpa using this
  | resent n lost =>
    have hlt := h.mode.2 (by rw [hm]; simp) (by rw [hm]; simp)
    simp only [Hub.timeout, hm]
    split
    · exact give _ (by cases lost <;> decide)
    · have := h.idle (m := .status (n + 1) 5) (more := []) (ds := [statusReq]) (by simp) (by simp [hlt]) stat
      simpa using this
  | stopped => exact absurd (.inl hm) hnot
  | crashed => exact absurd (.inr hm) hnot

end

end Verif.Hub
