import Verif.Lemmas.Chunk
import Verif.Lemmas.TcpAll
/-!
The TCP client is an instance of the generic transport `linkT`, up to the memory of packets that follow a refused packet
in its chunk: the body of the reply is scattered over their slots although they are never validated.
-/

set_option autoImplicit false
set_option linter.unusedSimpArgs false

namespace Verif

/-- `read_callback` is not about to report a refused packet. -/
def Tcp.noInv (u : Tcp) : Prop := ∀ e b ws, u.mid ≠ some (.invalid e b ws)

/-- Between calls the socket is closed only if nothing is going on, or the deadline has passed. -/
def Tcp.K (u : Tcp) : Prop :=
  u.exc = none → u.sock = false → u.mid = none ∧ (u.deadline = .inf ∨ u.sendOps = [] ∧ u.recvOps = [])

section
variable {c : Cfg} {n N : Nat} {u : Tcp}

theorem handOver_sock : u.handOver.sock = u.sock ∧ u.handOver.exc = u.exc := by
  unfold Tcp.handOver; split <;> exact ⟨rfl, rfl⟩

theorem Tcp.K.sendDone {ok : Bool} (h : u.K) : (u.sendDone n N ok).K := by
  unfold Tcp.sendDone
  cases hs : u.sendOps with
  | nil => exact h
  | cons x ops =>
    simp only
    cases he : u.exc with
    | some e => simp [Tcp.K]
    | none =>
      simp only [Option.isSome_none, Bool.false_eq_true, if_false]
      by_cases hd : u.deadline = .inf
      · rw [if_pos hd]; intro hx; cases hx
      · rw [if_neg hd]
        by_cases ho : ok = false
        · rw [if_pos ho]; intro hx; cases hx
        · rw [if_neg ho]
          have key : ∀ v : Tcp, v.sock = u.sock → v.exc = u.exc → v.K := by
            intro v h1 h2 hx hy
            have := h (h2 ▸ hx) (h1 ▸ hy)
            rw [hs] at this
            simp [hd] at this
          split
          · refine key _ ?_ ?_
            · exact (handOver_sock (u := { u with sendOps := ops, exc := none })).1
            · exact (handOver_sock (u := { u with sendOps := ops, exc := none })).2.trans he.symm
          · refine key _ ?_ ?_
            · exact (handOver_sock (u := { u with sendOps := ops, exc := none })).1
            · exact (handOver_sock (u := { u with sendOps := ops, exc := none })).2.trans he.symm

theorem Tcp.K.recvHdr {r : Option Nat} (h : u.K) : (u.recvHdr r).K := by
  unfold Tcp.recvHdr
  cases hs : u.recvOps with
  | nil => exact h
  | cons x ops =>
    simp only
    cases he : u.exc with
    | some e => simp [Tcp.K]
    | none =>
      simp only [Option.isSome_none, Bool.false_eq_true, if_false]
      by_cases hd : u.deadline = .inf
      · rw [if_pos hd]; intro hx; cases hx
      · rw [if_neg hd]
        have key : ∀ v : Tcp, v.sock = u.sock → v.exc = u.exc → v.K := by
          intro v h1 h2 hx hy
          have := h (h2 ▸ hx) (h1 ▸ hy)
          rw [hs] at this
          simp [hd] at this
        cases r <;> exact key _ rfl he.symm

theorem recvBody_sock {r : Option (List W)} : (u.recvBody c r).sock = u.sock ∧ (u.recvBody c r).exc = u.exc := by
  unfold Tcp.recvBody
  repeat' split
  all_goals exact ⟨rfl, rfl⟩

theorem advance_sock : (u.advance n N).sock = u.sock ∧ (u.advance n N).exc = u.exc ∧ (u.advance n N).heap = u.heap ∧
    (u.advance n N).log = u.log ∧ (u.advance n N).outcomes = u.outcomes := by
  have hp : u.pop.sock = u.sock ∧ u.pop.exc = u.exc ∧ u.pop.heap = u.heap ∧ u.pop.log = u.log ∧ u.pop.outcomes = u.outcomes := by
    unfold Tcp.pop
    cases u.replyQ <;> exact ⟨rfl, rfl, rfl, rfl, rfl⟩
  have hw : ∀ v : Tcp, v.sock = u.sock ∧ v.exc = u.exc ∧ v.heap = u.heap ∧ v.log = u.log ∧ v.outcomes = u.outcomes →
      (if v.disp = [] && v.reply = [] then { v with deadline := .armed, flushDone := true } else v).sock = u.sock ∧
      (if v.disp = [] && v.reply = [] then { v with deadline := .armed, flushDone := true } else v).exc = u.exc ∧
      (if v.disp = [] && v.reply = [] then { v with deadline := .armed, flushDone := true } else v).heap = u.heap ∧
      (if v.disp = [] && v.reply = [] then { v with deadline := .armed, flushDone := true } else v).log = u.log ∧
      (if v.disp = [] && v.reply = [] then { v with deadline := .armed, flushDone := true } else v).outcomes = u.outcomes := by
    intro v hv; split <;> exact hv
  unfold Tcp.advance
  apply hw
  split
  · exact hp
  · exact hp

theorem Tcp.K.recvEnd (h : u.K) (hm : u.mid ≠ none) : (u.recvEnd n N).K := by
  have key : ∀ v : Tcp, v.sock = u.sock → v.exc = u.exc → v.K := by
    intro v h1 h2 hx hy
    exact absurd (h (h2 ▸ hx) (h1 ▸ hy)).1 hm
  unfold Tcp.recvEnd
  split
  · intro hx; cases hx
  · intro hx; cases hx
  · exact key _ rfl rfl
  · exact key _ advance_sock.1 advance_sock.2.1
  · exact h

theorem Tcp.K.ev {e : TEv} (h : u.K) : (u.ev c n N e).K := by
  unfold Tcp.ev
  split
  · exact h
  · cases hm : u.mid with
    | none =>
      cases e with
      | sendDone ok => exact h.sendDone
      | recvHdr r => exact h.recvHdr
      | timeout =>
        simp only [Tcp.timeout]
        cases hd : u.deadline with
        | armed => intro _ _; exact ⟨hm, .inl rfl⟩
        | inf => exact h
      | recvBody r => exact h
      | recvEnd => exact h
    | some m =>
      cases e with
      | sendDone ok => exact h
      | recvHdr r => exact h
      | timeout => exact h
      | recvBody r =>
        intro hx hy
        obtain ⟨h1, h2⟩ := recvBody_sock (c := c) (u := u) (r := r)
        have := (h (h2 ▸ hx) (h1 ▸ hy)).1
        rw [hm] at this; cases this
      | recvEnd => exact h.recvEnd (by rw [hm]; simp)

theorem Tcp.K.evs (es : List TEv) (h : u.K) : (es.foldl (Tcp.ev c n N) u).K := by
  induction es generalizing u with
  | nil => exact h
  | cons e es ih => exact ih h.ev

end

section
variable {ρ : Type} {resp : ρ → List W → Option (List W) × ρ} {e0 eEnd : ρ}

/-- Memories, where a refused packet has not been reported yet, and `L` are packets whose memory is lost. -/
def TMem (c : Cfg) (L : List Buf) (u : Tcp) (l : Link ρ) : Prop :=
  match u.mid with
  | some (.invalid e b ws) => ∃ done rest h', u.reply = done ++ b :: rest ∧ receiveReply c l.heap b ws = (.err e, h') ∧
      HAgree (Junk (L ++ rest)) u.heap h' ∧ u.log = l.log ++ [⟨b, ws, .err e⟩] ∧
      l.pending = b :: (rest ++ (u.replyQ.flatten ++ (u.disp ++ u.dispQ)))
  | _ => HAgree (Junk L) u.heap l.heap ∧ u.log = l.log

/-- The packets of `L` share no memory with an accepted one; a reply was refused, if there are any. -/
def Spared (L : List Buf) (log : List Rx) : Prop :=
  (L ≠ [] → ∃ x ∈ log, x.out ≠ .ok) ∧ ∀ b ∈ L, ∀ x ∈ log, x.out = .ok → Disj x.buf b

/-- Replies processed belong to other packets than those waiting. -/
structure LogSep (pre : List Buf) (u : Tcp) (l : Link ρ) : Prop where
  logs : ∀ x ∈ l.log, x.buf ∈ pre ++ u.dispatched
  sep : u.exc = none → ∀ x ∈ l.log, ∀ b ∈ l.pending, Disj x.buf b

/-- Corresponding states. `TT`: all that ever happens to packets; `S`: the rest of the schedule; `pre`: packets of before the
last run of the exception handler. -/
structure TMatch (c : Cfg) (resp : ρ → List W → Option (List W) × ρ) (e0 eEnd : ρ) (TT : List (Buf × Option (List W))) (S : List (Nat × Nat))
    (pre : List Buf) (u : Tcp) (l : Link ρ) : Prop where
  env : ∃ rest, TT = u.outcomes ++ rest ∧ Follows resp e0 u.outcomes l.env ∧ Follows resp l.env rest eEnd
  sched : l.sched = S
  mem : ∃ L, ((∀ b ∈ L, b ∈ pre) ∨ u.exc ≠ none ∧ ∀ b ∈ L, b ∈ pre ++ u.dispatched) ∧ Spared L l.log ∧ TMem c L u l
  pend : u.exc = none → u.noInv → l.pending = u.waiting
  ls : LogSep pre u l

/-- `u` corresponds to `l0` after it has processed what has happened since. -/
def TLag (c : Cfg) (resp : ρ → List W → Option (List W) × ρ) (e0 eEnd : ρ) (TT : List (Buf × Option (List W))) (S : List (Nat × Nat))
    (pre : List Buf) (seen : Nat) (l0 : Link ρ) (u : Tcp) : Prop :=
  seen ≤ u.outcomes.length ∧ ∃ l1, TMatch c resp e0 eEnd TT S pre u l1 ∧
    process c resp (u.outcomes.length - seen) l0 = match u.exc with
      | none => .ok () l1
      | some e => .exc e l1

section
variable {c : Cfg} {TT : List (Buf × Option (List W))} {S : List (Nat × Nat)} {pre : List Buf} {seen : Nat} {l0 : Link ρ} {u u' : Tcp} {L : List Buf}

theorem Disj.symm {a b : Buf} (h : Disj a b) : Disj b a := fun l h1 h2 => h l h2 h1

theorem Spared.snoc {log : List Rx} (h : Spared L log) (lg : List Rx) (hd : ∀ b ∈ L, ∀ x ∈ lg, Disj x.buf b) : Spared L (log ++ lg) := by
  refine ⟨fun hx => ?_, ?_⟩
  · obtain ⟨y, hy, hy'⟩ := h.1 hx
    exact ⟨y, by simp [hy], hy'⟩
  · intro b hb x hx ho
    rcases List.mem_append.1 hx with hx | hx
    · exact h.2 b hb x hx ho
    · exact hd b hb x hx

theorem TMem.plain (h : TMem c L u l0) (hm : u.noInv) : HAgree (Junk L) u.heap l0.heap ∧ u.log = l0.log := by
  unfold TMem at h
  split at h
  · rename_i e b ws hx; exact absurd hx (hm e b ws)
  · exact h

theorem TMem.mk' (h : HAgree (Junk L) u.heap l0.heap ∧ u.log = l0.log) (hm : u.noInv) : TMem c L u l0 := by
  unfold TMem
  split
  · rename_i e b ws hx; exact absurd hx (hm e b ws)
  · exact h

theorem TMatch.move {S' : List (Nat × Nat)} (h : TMatch c resp e0 eEnd TT S pre u l0) (hS : S' = S) (ho : u'.outcomes = u.outcomes) (he : u'.exc = u.exc) (hd : u'.dispatched = u.dispatched)
    (hm : ∀ (L : List Buf) (l : Link ρ), TMem c L u l → TMem c L u' l) (hw : u'.exc = none → u'.noInv → u.noInv ∧ u'.waiting = u.waiting) :
    TMatch c resp e0 eEnd TT S' pre u' l0 := by
  obtain ⟨L, q1, q2, q3⟩ := h.mem
  refine ⟨by rw [ho]; exact h.env, by rw [hS]; exact h.sched, ⟨L, by rw [he, hd]; exact q1, q2, hm _ _ q3⟩, ?_, ⟨by rw [hd]; exact h.ls.logs, fun hx => h.ls.sep (he ▸ hx)⟩⟩
  intro hx hn
  obtain ⟨w1, w2⟩ := hw hx hn
  rw [w2]
  exact h.pend (he ▸ hx) w1

theorem TLag.same (h : TLag c resp e0 eEnd TT S pre seen l0 u) (ho : u'.outcomes = u.outcomes) (he : u'.exc = u.exc) (hd : u'.dispatched = u.dispatched)
    (hm : ∀ (L : List Buf) (l : Link ρ), TMem c L u l → TMem c L u' l) (hw : u'.exc = none → u'.noInv → u.noInv ∧ u'.waiting = u.waiting) :
    TLag c resp e0 eEnd TT S pre seen l0 u' := by
  obtain ⟨h1, l1, h2, h3⟩ := h
  exact ⟨by rw [ho]; exact h1, l1, h2.move rfl ho he hd hm hw, by rw [ho, he]; exact h3⟩

theorem TMatch.snocs {x : List (Buf × Option (List W))} (h : TMatch c resp e0 eEnd TT S pre u l0) (hp : u.outcomes ++ x <+: TT) :
    ∃ t e1, TT = u.outcomes ++ (x ++ t) ∧ Follows resp l0.env x e1 ∧ Follows resp e0 (u.outcomes ++ x) e1 ∧ Follows resp e1 t eEnd := by
  obtain ⟨t, ht⟩ := hp
  obtain ⟨rest, h1, h0, h2⟩ := h.env
  rw [h1, List.append_assoc] at ht
  have := List.append_cancel_left ht
  rw [← this] at h2
  have split : ∀ (a b : List (Buf × Option (List W))) (e e' : ρ), Follows resp e (a ++ b) e' → ∃ e1, Follows resp e a e1 ∧ Follows resp e1 b e' := by
    intro a b
    induction a with
    | nil => intro e e' h; exact ⟨e, .nil _, h⟩
    | cons p a ih =>
      intro e e' h
      cases h with
      | cons hr h' =>
        obtain ⟨e1, k1, k2⟩ := ih _ _ h'
        exact ⟨e1, .cons hr k1, k2⟩
  obtain ⟨e1, k1, k2⟩ := split _ _ _ _ h2
  exact ⟨t, e1, by rw [h1, ← this], k1, h0.append k1, k2⟩

theorem TLag.fail (h : TLag c resp e0 eEnd TT S pre seen l0 u) (he : u.exc = none) (hm : u.noInv) (hm' : u'.noInv)
    (hw : u.waiting ≠ []) (ho : u'.outcomes = u.outcomes ++ u.lost)
    (he' : u'.exc = some (.transport 0)) (hdd : u'.dispatched = u.dispatched) (hh : u'.heap = u.heap) (hl : u'.log = u.log) (hT : u'.outcomes <+: TT) :
    TLag c resp e0 eEnd TT S pre seen l0 u' := by
  obtain ⟨h1, l1, h2, h3⟩ := h
  rw [he] at h3
  have hp := h2.pend he hm
  cases hpe : u.waiting with
  | nil => exact absurd hpe hw
  | cons b bs =>
    have hlo : u.lost = [(b, none)] := by simp [Tcp.lost, hpe]
    rw [hlo] at ho
    obtain ⟨t, e1, ht, hr, hf0, hf⟩ := h2.snocs (ho ▸ hT)
    obtain ⟨L, q1, q2, q3⟩ := h2.mem
    obtain ⟨p1, p2⟩ := q3.plain hm
    have hlen : u'.outcomes.length = u.outcomes.length + 1 := by rw [ho]; simp
    have hr' : resp l1.env b.send = (none, e1) := by
      cases hr with
      | cons a b => cases b; exact a
    refine ⟨by omega, { l1 with pending := l1.pending.tail, env := e1 }, ⟨⟨t, ?_, ho ▸ hf0, hf⟩, h2.sched, ⟨L, ?_, q2, .mk' ⟨hh ▸ p1, hl.trans p2⟩ hm'⟩, ?_, ⟨by rw [hdd]; exact h2.ls.logs, by rw [he']; intro hx; cases hx⟩⟩, ?_⟩
    · rw [ho, ht]; simp
    · rcases q1 with q1 | q1
      · exact .inl q1
      · exact absurd he q1.1
    · rw [he']; intro hx; cases hx
    · have : u'.outcomes.length - seen = (u.outcomes.length - seen) + 1 := by omega
      rw [this, process_add, h3, he']
      simp only
      rw [process, hp, hpe]
      simp only [hr', List.tail_cons]

theorem write_waiting (n : Nat) (v : Tcp) : (v.write n).waiting = v.waiting := by
  simp [Tcp.waiting, Tcp.write]

theorem noInv_none {v : Tcp} (h : v.mid = none) : v.noInv := by
  intro e b ws hx; rw [h] at hx; cases hx

/-- What `write_callback` does to the ghosts. -/
theorem sendDone_cases (n N : Nat) (ok : Bool) (u : Tcp) :
    ((u.sendDone n N ok).exc = u.exc ∧ (u.sendDone n N ok).outcomes = u.outcomes) ∨
    (u.exc = none ∧ (u.sendDone n N ok).exc = some (.transport 0) ∧ (u.sendDone n N ok).outcomes = u.outcomes ++ u.lost ∧ u.sendOps ≠ []) := by
  unfold Tcp.sendDone
  cases hs : u.sendOps with
  | nil => exact .inl ⟨rfl, rfl⟩
  | cons x ops =>
    simp only
    cases he : u.exc with
    | some e => exact .inl ⟨by simp, by simp⟩
    | none =>
      simp only [Option.isSome_none, Bool.false_eq_true, if_false]
      split
      · exact .inr ⟨trivial, rfl, rfl, by simp⟩
      · split
        · exact .inr ⟨trivial, rfl, rfl, by simp⟩
        · have : ∀ v : Tcp, v.handOver.exc = v.exc ∧ v.handOver.outcomes = v.outcomes := by
            intro v; unfold Tcp.handOver; split <;> exact ⟨rfl, rfl⟩
          split
          · exact .inl (this { u with sendOps := ops, exc := none })
          · exact .inl (this { u with sendOps := ops, exc := none })

theorem sendDone_mem (n N : Nat) (ok : Bool) (u : Tcp) : (u.sendDone n N ok).heap = u.heap ∧ (u.sendDone n N ok).log = u.log := by
  unfold Tcp.sendDone
  cases hs : u.sendOps with
  | nil => exact ⟨rfl, rfl⟩
  | cons x ops =>
    simp only
    have : ∀ v : Tcp, v.handOver.heap = v.heap ∧ v.handOver.log = v.log := by
      intro v; unfold Tcp.handOver; split <;> exact ⟨rfl, rfl⟩
    repeat' split
    · exact ⟨rfl, rfl⟩
    · exact ⟨rfl, rfl⟩
    · exact ⟨rfl, rfl⟩
    · exact this { u with sendOps := ops }
    · exact this { u with sendOps := ops }

theorem TLag.sendDone {n N : Nat} {ok : Bool} (h : TLag c resp e0 eEnd TT S pre seen l0 u) (hi : TInv n N u) (hm : u.mid = none)
    (hT : (u.sendDone n N ok).outcomes <+: TT) : TLag c resp e0 eEnd TT S pre seen l0 (u.sendDone n N ok) := by
  have hf := TFrame.sendDone n N ok u
  have hmm := sendDone_mem n N ok u
  have hmi := noInv_none hm
  have hmi' : (u.sendDone n N ok).noInv := noInv_none (hf.mid.trans hm)
  rcases sendDone_cases n N ok u with ⟨a, b⟩ | ⟨a, b, d, f⟩
  · refine h.same b a hf.dispatched ?_ ?_
    · intro L l hl
      refine .mk' ?_ hmi'
      rw [hmm.1, hmm.2]
      exact hl.plain hmi
    · intro hx _
      refine ⟨hmi, ?_⟩
      have hx' : u.exc = none := a ▸ hx
      revert hx
      unfold Tcp.sendDone
      cases hs : u.sendOps with
      | nil => intro _; rfl
      | cons x ops =>
        simp only [hx', Option.isSome_none, Bool.false_eq_true, if_false]
        split
        · intro hx; cases hx
        · split
          · intro hx; cases hx
          · intro _
            have : ({ u with sendOps := ops, exc := none } : Tcp).handOver.waiting = u.waiting := by
              unfold Tcp.handOver
              by_cases hr : u.reply ≠ []
              · rw [if_pos hr]
                simp [Tcp.waiting, hm]
              · rw [if_neg hr]
                have hr' : u.reply = [] := by simpa using hr
                simp [Tcp.waiting, Tcp.read, hm, hr', hi.rq hr']
            split
            · rw [write_waiting]; exact this
            · exact this
  · refine h.fail a hmi hmi' ?_ d b hf.dispatched hmm.1 hmm.2 hT
    have := hi.sops
    intro hw
    have hd : u.disp = [] := by
      simp [Tcp.waiting] at hw
      exact hw.2.2.1
    rw [hd] at this
    simp at this
    exact f this

theorem TLag.recvHdr {n N : Nat} {r : Option Nat} (h : TLag c resp e0 eEnd TT S pre seen l0 u) (hi : TInv n N u) (hm : u.mid = none)
    (hT : (u.recvHdr r).outcomes <+: TT) : TLag c resp e0 eEnd TT S pre seen l0 (u.recvHdr r) := by
  have hmi := noInv_none hm
  unfold Tcp.recvHdr at hT ⊢
  cases hs : u.recvOps with
  | nil => exact h
  | cons x ops =>
    have hi8 := hi.rops
    rw [hs] at hT hi8
    simp only at hT ⊢
    cases he : u.exc with
    | some e =>
      simp only [Option.isSome_some, if_true]
      refine h.same rfl he.symm rfl (fun L l hl => .mk' (hl.plain hmi) hmi) ?_
      intro hx; cases hx
    | none =>
      simp only [he, Option.isSome_none, Bool.false_eq_true, if_false] at hT ⊢
      have hrp : u.reply ≠ [] := one_pos (by simp at hi8; omega)
      split at hT
      · rename_i hd
        simp only [hd, if_true]
        refine h.fail he hmi ?_ ?_ ?_ rfl rfl rfl rfl ?_
        · exact hmi
        · simp [Tcp.waiting, hm, hrp]
        · rfl
        · exact hT
      · rename_i hd
        simp only [hd, if_false]
        cases r with
        | none =>
          refine h.same rfl he.symm rfl (fun L l hl => .mk' (hl.plain hmi) (by intro _ _ _ hx; cases hx)) ?_
          intro _ _
          exact ⟨hmi, by simp [Tcp.waiting, hm]⟩
        | some k =>
          refine h.same rfl he.symm rfl (fun L l hl => .mk' (hl.plain hmi) (by intro _ _ _ hx; cases hx)) ?_
          intro _ _
          exact ⟨hmi, by simp [Tcp.waiting, hm]⟩

theorem TLag.recvBody {n N : Nat} {r : Option (List W)} (h : TLag c resp e0 eEnd TT S pre seen l0 u) (hi : TInv n N u)
    (hD : (pre ++ u.dispatched).Pairwise Disj) (hT : (u.recvBody c r).outcomes <+: TT) (hc' : (u.recvBody c r).crashed = false) :
    TLag c resp e0 eEnd TT S pre seen l0 (u.recvBody c r) := by
  unfold Tcp.recvBody at hT hc' ⊢
  split
  case h_2 => exact h
  rename_i k hm
  rw [hm] at hT hc'
  simp only at hT hc'
  have hmi : u.noInv := by intro _ _ _ hx; rw [hm] at hx; cases hx
  have he : u.exc = none := by
    cases he : u.exc with
    | none => rfl
    | some e => have := hi.midx (by simp [he]); simp [hm] at this
  have hfail : TLag c resp e0 eEnd TT S pre seen l0 { u with mid := some .failed } := by
    refine h.same rfl rfl rfl (fun L l hl => .mk' (hl.plain hmi) (by intro _ _ _ hx; cases hx)) ?_
    intro _ _
    exact ⟨hmi, by simp [Tcp.waiting, hm]⟩
  cases r with
  | none => exact hfail
  | some ws =>
    simp only at hT hc' ⊢
    by_cases hk : ws.length ≠ k ∨ (u.reply.map Buf.words).sum < k
    · rw [if_pos hk]; exact hfail
    · rw [if_neg hk] at hT hc' ⊢
      obtain ⟨h1, l1, h2, h3⟩ := h
      obtain ⟨L, q1, q2, q3⟩ := h2.mem
      obtain ⟨p1, p2⟩ := q3.plain hmi
      rw [he] at h3
      have hpd := h2.pend he hmi
      have hw : u.waiting = u.reply ++ (u.replyQ.flatten ++ (u.disp ++ u.dispQ)) := by simp [Tcp.waiting, hm]
      rw [hw] at hpd
      have q1 : ∀ b ∈ L, b ∈ pre := by
        rcases q1 with q1 | q1
        · exact q1
        · exact absurd he q1.1
      rw [hi.disp] at hD
      have hDr : u.reply.Pairwise Disj :=
        ((List.pairwise_append.1 (List.pairwise_append.1 (List.pairwise_append.1 hD).2.1).2.1).1)
      have hDt : ∀ a ∈ u.reply, ∀ b ∈ u.replyQ.flatten ++ (u.disp ++ u.dispQ), Disj a b :=
        (List.pairwise_append.1 (List.pairwise_append.1 (List.pairwise_append.1 hD).2.1).2.1).2.2
      have hJ : ∀ b ∈ u.reply, ∀ x ∈ bufLocs b, ¬ Junk L x := by
        rintro b hb x hx ⟨b', hb', hx'⟩
        exact (List.pairwise_append.1 hD).2.2 b' (q1 b' hb') b (by simp [hb]) x hx' hx
      have hag : HAgree (Junk L) (scatter u.heap (u.reply.flatMap (·.reply)) ws) (scatter l1.heap (u.reply.flatMap (·.reply)) ws) := scatter_agree _ _ p1
      cases hre : receiveChunk c u.heap u.reply ws with
      | mk o p =>
        obtain ⟨hp, lg⟩ := p
        rw [hre] at hT hc'
        have hre' : chunkValidate c (scatter u.heap (u.reply.flatMap (·.reply)) ws) u.reply ws = (o, hp, lg) := hre
        cases o with
        | ok =>
          simp only at hT hc' ⊢
          obtain ⟨t, e1, ht, hf1, hf0, hf⟩ := h2.snocs hT
          obtain ⟨g1, g0, h', g2, g3⟩ := chunk_ok (c := c) (resp := resp) (J := Junk L) u.reply ws _ l1 _ e1 hDr hJ hag hpd (by rw [hre']) (by rw [hre']; exact hf1)
          rw [hre'] at g1 g0 g2 g3
          refine ⟨by simp; omega, { l1 with heap := h', pending := u.replyQ.flatten ++ (u.disp ++ u.dispQ), env := e1, log := l1.log ++ lg },
            ⟨⟨t, ?_, hf0, hf⟩, h2.sched, ⟨L, .inl q1, ?_, .mk' ⟨g3, ?_⟩ (by intro _ _ _ hx; cases hx)⟩, ?_, ?_⟩, ?_⟩
          · rw [ht]; simp
          · exact q2.snoc _ fun b hb x hx => by
              have hx' : x.buf ∈ u.reply := by rw [← g0.2]; exact List.mem_map_of_mem hx
              exact ((List.pairwise_append.1 hD).2.2 b (q1 b hb) x.buf (by simp [hx'])).symm
          · simp [p2]
          · intro _ _
            simp [Tcp.waiting]
          · refine ⟨?_, fun _ => ?_⟩
            · intro x hx
              rcases List.mem_append.1 hx with hx | hx
              · exact h2.ls.logs x hx
              · have hx' : x.buf ∈ u.reply := by rw [← g0.2]; exact List.mem_map_of_mem hx
                rw [hi.disp]; simp [hx']
            · intro x hx b hb
              rcases List.mem_append.1 hx with hx | hx
              · exact h2.ls.sep he x hx b (by rw [hpd]; exact List.mem_append_right _ hb)
              · have hx' : x.buf ∈ u.reply := by rw [← g0.2]; exact List.mem_map_of_mem hx
                exact hDt x.buf hx' b hb
          · have : (u.outcomes ++ okOutcomes lg).length - seen = (u.outcomes.length - seen) + u.reply.length := by
              rw [List.length_append, g1]; omega
            rw [this, process_add, h3]
            simp only [he]
            exact g2
        | err e =>
          simp only at hT hc' ⊢
          cases hgl : lg.getLast? with
          | none => rw [hgl] at hc'; cases hc'
          | some x =>
            rw [hgl] at hT
            simp only at hT ⊢
            obtain ⟨t, e1, ht, hf1, hf0, hf⟩ := h2.snocs hT
            obtain ⟨done, b, rest, wsb, h', h'', lg', g1, g2, g3, g4, g5, g6, g7⟩ :=
              chunk_err (c := c) (resp := resp) (L := L) u.reply ws _ l1 _ e1 e hDr hJ hag hpd (by rw [hre']) (by rw [hre']; exact hf1)
            rw [hre'] at g2 g3 g6
            simp only at g2 g3 g6
            have hx : x = ⟨b, wsb, .err e⟩ := by
              rw [g2] at hgl
              simp at hgl
              exact hgl.symm
            subst hx
            refine ⟨by simp; omega, { l1 with heap := h', pending := b :: (rest ++ (u.replyQ.flatten ++ (u.disp ++ u.dispQ))), env := e1, log := l1.log ++ lg' },
              ⟨⟨t, ?_, hf0, hf⟩, h2.sched, ⟨L, .inl q1, ?_, ⟨done, rest, h'', g1, g5, g6, by simp [p2, g2], rfl⟩⟩, ?_, ?_⟩, ?_⟩
            · rw [ht]; simp
            · exact q2.snoc _ fun b' hb' x hx => by
                have hx' : x.buf ∈ u.reply := by rw [g1, ← g7]; exact List.mem_append_left _ (List.mem_map_of_mem hx)
                exact ((List.pairwise_append.1 hD).2.2 b' (q1 b' hb') x.buf (by simp [hx'])).symm
            · intro _ hx
              exact absurd rfl (hx _ _ _)
            · refine ⟨?_, fun _ => ?_⟩
              · intro x hx
                rcases List.mem_append.1 hx with hx | hx
                · exact h2.ls.logs x hx
                · have hx' : x.buf ∈ u.reply := by rw [g1, ← g7]; exact List.mem_append_left _ (List.mem_map_of_mem hx)
                  rw [hi.disp]; simp [hx']
              · intro x hx b' hb'
                have hb2 : b' ∈ b :: rest ∨ b' ∈ u.replyQ.flatten ++ (u.disp ++ u.dispQ) := by
                  rw [← List.cons_append] at hb'
                  exact List.mem_append.1 hb'
                rcases List.mem_append.1 hx with hx | hx
                · refine h2.ls.sep he x hx b' ?_
                  rw [hpd, g1]
                  rcases hb2 with hb2 | hb2
                  · exact List.mem_append_left _ (List.mem_append_right _ hb2)
                  · exact List.mem_append_right _ hb2
                · have hx' : x.buf ∈ done := by rw [← g7]; exact List.mem_map_of_mem hx
                  rcases hb2 with hb2 | hb2
                  · rw [g1] at hDr
                    exact (List.pairwise_append.1 hDr).2.2 x.buf hx' b' hb2
                  · exact hDt x.buf (by rw [g1]; exact List.mem_append_left _ hx') b' hb2
            · have : (u.outcomes ++ okOutcomes lg).length - seen = (u.outcomes.length - seen) + done.length := by
                rw [List.length_append, g3]; omega
              rw [this, process_add, h3]
              simp only [he]
              exact g4
        | ub => exact absurd hc' (by simp)

theorem TLag.recvEnd {n N : Nat} (h : TLag c resp e0 eEnd TT S pre seen l0 u) (hi : TInv n N u) (hT : (u.recvEnd n N).outcomes <+: TT) :
    TLag c resp e0 eEnd TT S pre seen l0 (u.recvEnd n N) := by
  unfold Tcp.recvEnd at hT ⊢
  cases hm : u.mid with
  | none => exact h
  | some m =>
    rw [hm] at hT
    cases m with
    | body k => exact h
    | failed =>
      have he : u.exc = none := by
        cases hx : u.exc with
        | none => rfl
        | some e => have := hi.midx (by simp [hx]); simp [hm] at this
      refine h.fail he (by intro _ _ _ hx; rw [hm] at hx; cases hx) (by intro _ _ _ hx; cases hx) ?_ rfl rfl rfl rfl rfl hT
      have := hi.rops' he
      have hrp : u.reply ≠ [] := one_pos (by rw [hm] at this; simp at this; omega)
      simp [Tcp.waiting, hm, hrp]
    | invalid e b ws =>
      have he : u.exc = none := by
        cases hx : u.exc with
        | none => rfl
        | some e => have := hi.midx (by simp [hx]); simp [hm] at this
      obtain ⟨h1, l1, h2, h3⟩ := h
      rw [he] at h3
      obtain ⟨L, q1, q2, q3⟩ := h2.mem
      unfold TMem at q3
      rw [hm] at q3
      obtain ⟨done, rest, h', g1, g2, g3, g4, g5⟩ := q3
      have q1 : ∀ b ∈ L, b ∈ pre := by
        rcases q1 with q1 | q1
        · exact q1
        · exact absurd he q1.1
      simp only at hT ⊢
      obtain ⟨t, e1, ht, hr, hf0, hf⟩ := h2.snocs hT
      have hr' : resp l1.env b.send = (some ws, e1) := by
        cases hr with
        | cons a b => cases b; exact a
      refine ⟨by simp; omega, { l1 with heap := h', pending := l1.pending.tail, env := e1, log := l1.log ++ [⟨b, ws, .err e⟩] },
        ⟨⟨t, ?_, hf0, hf⟩, h2.sched, ⟨L ++ rest, .inr ⟨by simp, ?_⟩, ⟨fun _ => ⟨⟨b, ws, .err e⟩, by simp, by simp⟩, ?_⟩, .mk' ⟨g3, g4⟩ (by intro _ _ _ hx; cases hx)⟩, ?_, ?_, ?_⟩, ?_⟩
      · rw [ht]; simp
      · intro x hx
        rcases List.mem_append.1 hx with hx | hx
        · simp [q1 x hx]
        · rw [hi.disp, g1]; simp [hx]
      · intro b' hb' x hx hok
        rcases List.mem_append.1 hx with hx | hx
        · rcases List.mem_append.1 hb' with hb' | hb'
          · exact q2.2 b' hb' x hx hok
          · exact h2.ls.sep he x hx b' (by rw [g5]; simp [hb'])
        · rw [List.mem_singleton.1 hx] at hok; cases hok
      · intro hx; cases hx
      · intro x hx
        rcases List.mem_append.1 hx with hx | hx
        · exact h2.ls.logs x hx
        · rw [List.mem_singleton.1 hx, hi.disp, g1]; simp
      · intro hx; cases hx
      · have : (u.outcomes ++ [(b, some ws)]).length - seen = (u.outcomes.length - seen) + 1 := by simp; omega
        rw [this, process_add, h3]
        simp only
        rw [process, g5]
        simp only [hr', List.tail_cons]
        rw [g2]
    | notify =>
      have hx := hi.midn hm
      have hmi : u.noInv := by intro _ _ _ hx; rw [hm] at hx; cases hx
      refine h.same rfl rfl rfl (fun L l hl => .mk' (hl.plain hmi) (by intro _ _ _ hx; cases hx)) ?_
      intro hy; exact absurd hy hx
    | last =>
      simp only at hT ⊢
      have hmi : u.noInv := by intro _ _ _ hx; rw [hm] at hx; cases hx
      obtain ⟨f1, f2, f3, f4, f5⟩ := advance_sock (n := n) (N := N) (u := { u with mid := none })
      have ff := advance_frame n N { u with mid := none }
      have hni : ({ u with mid := none } : Tcp).advance n N |>.noInv := noInv_none ff.mid
      refine h.same f5 f2 ff.dispatched (fun L l hl => .mk' (by rw [f3, f4]; exact hl.plain hmi) hni) ?_
      intro _ _
      refine ⟨hmi, ?_⟩
      have hW : u.waiting = u.replyQ.flatten ++ (u.disp ++ u.dispQ) := by simp [Tcp.waiting, hm]
      rw [hW]
      have hp : ({ u with mid := none } : Tcp).pop.waiting = u.replyQ.flatten ++ (u.disp ++ u.dispQ) := by
        unfold Tcp.pop
        cases hq : u.replyQ <;> simp [Tcp.waiting, Tcp.read]
      have hfin : ∀ v : Tcp, (if v.disp = [] && v.reply = [] then { v with deadline := .armed, flushDone := true } else v).waiting = v.waiting := by
        intro v; split <;> rfl
      unfold Tcp.advance
      dsimp only
      rw [hfin]
      split
      · rw [write_waiting]; exact hp
      · exact hp

theorem TLag.ev {n N : Nat} {e : TEv} (h : TLag c resp e0 eEnd TT S pre seen l0 u) (hi : TInv n N u) (hD : (pre ++ u.dispatched).Pairwise Disj)
    (hT : (u.ev c n N e).outcomes <+: TT) (hc : u.crashed = false) (hc' : (u.ev c n N e).crashed = false) :
    TLag c resp e0 eEnd TT S pre seen l0 (u.ev c n N e) := by
  unfold Tcp.ev at hT hc' ⊢
  simp only [hc, Bool.false_eq_true, if_false] at hT hc' ⊢
  cases hm : u.mid with
  | none =>
    rw [hm] at hT hc'
    cases e with
    | sendDone ok => exact h.sendDone hi hm hT
    | recvHdr r => exact h.recvHdr hi hm hT
    | timeout =>
      simp only [Tcp.timeout]
      cases hd : u.deadline with
      | armed => exact h.same rfl rfl rfl (fun L l hl => hl) (fun _ hn => ⟨hn, rfl⟩)
      | inf => exact h
    | recvEnd => exact h
    | recvBody r => exact h
  | some m =>
    rw [hm] at hT hc'
    cases e with
    | sendDone ok => exact h
    | recvHdr r => exact h
    | timeout => exact h
    | recvBody r => exact h.recvBody hi hD hT hc'
    | recvEnd => exact h.recvEnd hi hT

theorem tev_outcomes (n N : Nat) (u : Tcp) (e : TEv) : u.outcomes <+: (u.ev c n N e).outcomes := by
  unfold Tcp.ev
  split
  · exact List.prefix_refl _
  · cases hm : u.mid with
    | none =>
      cases e with
      | sendDone ok =>
        rcases sendDone_cases n N ok u with ⟨_, b⟩ | ⟨_, _, b, _⟩
        · simp only [b]; exact List.prefix_refl _
        · simp only [b]; exact List.prefix_append _ _
      | recvHdr r =>
        simp only [Tcp.recvHdr]
        repeat' split
        all_goals first | exact List.prefix_refl _ | exact List.prefix_append _ _
      | timeout => simp only [Tcp.timeout]; cases u.deadline <;> exact List.prefix_refl _
      | recvEnd => exact List.prefix_refl _
      | recvBody r => exact List.prefix_refl _
    | some m =>
      cases e with
      | recvEnd =>
        simp only [Tcp.recvEnd, hm]
        cases m with
        | failed => exact List.prefix_append _ _
        | invalid e b ws => exact List.prefix_append _ _
        | last => simp only; rw [advance_sock.2.2.2.2]; exact List.prefix_refl _
        | body k => exact List.prefix_refl _
        | notify => exact List.prefix_refl _
      | recvBody r =>
        simp only [Tcp.recvBody]
        repeat' split
        all_goals first | exact List.prefix_refl _ | exact List.prefix_append _ _
      | sendDone ok => exact List.prefix_refl _
      | timeout => exact List.prefix_refl _
      | recvHdr r => exact List.prefix_refl _

theorem tevs_outcomes (n N : Nat) (es : List TEv) (u : Tcp) : u.outcomes <+: (es.foldl (Tcp.ev c n N) u).outcomes := by
  induction es generalizing u with
  | nil => exact List.prefix_refl _
  | cons e es ih => exact (tev_outcomes n N u e).trans (ih _)

theorem tevs_crashed (n N : Nat) (es : List TEv) {u : Tcp} (h : u.crashed = true) : (es.foldl (Tcp.ev c n N) u).crashed = true := by
  induction es generalizing u with
  | nil => exact h
  | cons e es ih => exact ih (by unfold Tcp.ev; rw [if_pos h]; exact h)

theorem tevs_flags (n N : Nat) (es : List TEv) (u : Tcp) : (es.foldl (Tcp.ev c n N) u).dirty = u.dirty ∧
    (es.foldl (Tcp.ev c n N) u).stale = u.stale ∧ (es.foldl (Tcp.ev c n N) u).dispatched = u.dispatched ∧ (es.foldl (Tcp.ev c n N) u).pc = u.pc := by
  induction es generalizing u with
  | nil => exact ⟨rfl, rfl, rfl, rfl⟩
  | cons e es ih =>
    obtain ⟨a1, a2, a3, a4⟩ := ev_flags c n N u e
    obtain ⟨b1, b2, b3, b4⟩ := ih (u.ev c n N e)
    exact ⟨b1.trans a1, b2.trans a2, b3.trans a3, b4.trans a4⟩

theorem TInv.ev {n N : Nat} (hp : TPar n N) {e : TEv} (h : TInv n N u) (hc : u.crashed = false) (hc' : (u.ev c n N e).crashed = false) :
    TInv n N (u.ev c n N e) := by
  unfold Tcp.ev at hc' ⊢
  simp only [hc, Bool.false_eq_true, if_false] at hc' ⊢
  cases hm : u.mid with
  | none =>
    rw [hm] at hc'
    cases e with
    | sendDone ok => exact (h.sendDone hp.hn hp.hdvd hp.hN hm).1
    | recvHdr r => exact (h.recvHdr hm).1
    | timeout => exact h.timeout
    | recvEnd => exact h
    | recvBody r => exact h
  | some m =>
    rw [hm] at hc'
    cases e with
    | sendDone ok => exact h
    | recvHdr r => exact h
    | timeout => exact h
    | recvBody r => exact (h.recvBody hc).1 hc'
    | recvEnd => exact (h.recvEnd hp.hn hp.hdvd hp.hN).1

theorem TLag.evs {n N : Nat} (hp : TPar n N) (es : List TEv) (h : TLag c resp e0 eEnd TT S pre seen l0 u) (hi : TInv n N u)
    (hD : (pre ++ u.dispatched).Pairwise Disj) (hT : (es.foldl (Tcp.ev c n N) u).outcomes <+: TT)
    (hc : (es.foldl (Tcp.ev c n N) u).crashed = false) :
    TLag c resp e0 eEnd TT S pre seen l0 (es.foldl (Tcp.ev c n N) u) ∧ TInv n N (es.foldl (Tcp.ev c n N) u) := by
  induction es generalizing u with
  | nil => exact ⟨h, hi⟩
  | cons e es ih =>
    have hnc : ∀ v : Tcp, (es.foldl (Tcp.ev c n N) v).crashed = false → v.crashed = false := by
      intro v hv
      cases hx : v.crashed with
      | false => rfl
      | true => rw [tevs_crashed n N es hx] at hv; cases hv
    have h1 := hnc _ hc
    have h2 : u.crashed = false := by
      cases hx : u.crashed with
      | false => rfl
      | true => rw [tevs_crashed n N (e :: es) hx] at hc; cases hc
    exact ih (h.ev hi hD ((tevs_outcomes n N es _).trans hT) h2 h1) (hi.ev hp h2 h1) (by rw [(ev_flags c n N u e).2.2.1]; exact hD) hT hc

/-- What is assumed of the final state: `TT`, `CC`, `HH` are the records at the end of the run. -/
structure TGood (TT : List (Buf × Option (List W))) (CC : List (Nat × Nat)) (HH : List Buf) (t : TcpT) : Prop where
  out : t.u.outcomes <+: TT
  cnt : t.counts <+: CC
  ever : t.ever <+: HH
  dirty : t.u.dirty = false
  stale : t.u.stale = false

/-- Corresponding transports between an exception and the handler. -/
structure TRX (c : Cfg) (resp : ρ → List W → Option (List W) × ρ) (e0 eEnd : ρ) (TT : List (Buf × Option (List W))) (CC : List (Nat × Nat))
    (t : TcpT) (l : Link ρ) : Prop where
  seen : t.seen = t.u.outcomes.length
  env : ∃ rest, TT = t.u.outcomes ++ rest ∧ Follows resp e0 t.u.outcomes l.env ∧ Follows resp l.env rest eEnd
  sched : l.sched = CC.drop t.counts.length
  logs : ∀ x ∈ l.log, x.buf ∈ t.ever
  mem : ∃ L, (∀ b ∈ L, b ∈ t.ever) ∧ Spared L l.log ∧ (t.u.mid = none → HAgree (Junk L) t.u.heap l.heap ∧ t.u.log = l.log)

/-- Corresponding transports. -/
structure TR (c : Cfg) (resp : ρ → List W → Option (List W) × ρ) (e0 eEnd : ρ) (n N : Nat) (TT : List (Buf × Option (List W))) (CC : List (Nat × Nat))
    (t : TcpT) (l : Link ρ) : Prop where
  inv : TInv n N t.u
  seen : t.seen = t.u.outcomes.length
  k : t.u.K
  pc : t.u.pc = .idle
  exc : t.u.exc = none
  m : ∃ pre, t.ever = pre ++ t.u.dispatched ∧ TMatch c resp e0 eEnd TT (CC.drop t.counts.length) pre t.u l

theorem TMatch.rx {CC : List (Nat × Nat)} {t : TcpT} {l : Link ρ} {pre : List Buf} (hs : t.seen = t.u.outcomes.length)
    (hp : ∀ b ∈ pre ++ t.u.dispatched, b ∈ t.ever)
    (h : TMatch c resp e0 eEnd TT (CC.drop t.counts.length) pre t.u l) : TRX c resp e0 eEnd TT CC t l := by
  obtain ⟨L, q1, q2, q3⟩ := h.mem
  refine ⟨hs, h.env, h.sched, fun x hx => hp _ (h.ls.logs x hx), L, ?_, q2, fun hx => q3.plain (noInv_none hx)⟩
  intro b hb
  apply hp
  rcases q1 with q1 | q1
  · exact List.mem_append_left _ (q1 b hb)
  · exact q1.2 b hb

instance {n N : Nat} {CC : List (Nat × Nat)} : SubR (TR c resp e0 eEnd n N TT CC) (TRX c resp e0 eEnd TT CC) :=
  ⟨fun h => by
    obtain ⟨pre, p1, p2⟩ := h.m
    exact p2.rx h.seen (by rw [p1]; exact fun _ hb => hb)⟩

theorem drop_snoc {α : Type} {CC a : List α} {x : α} (h : a ++ [x] <+: CC) : CC.drop a.length = x :: CC.drop (a ++ [x]).length := by
  obtain ⟨t, rfl⟩ := h
  simp

theorem Pairwise.prefix {α : Type} {r : α → α → Prop} {a b : List α} (h : b.Pairwise r) (hp : a <+: b) : a.Pairwise r := by
  obtain ⟨t, rfl⟩ := hp
  exact (List.pairwise_append.1 h).1

/-- What `implementDispatch` does to the rest. -/
theorem enqueue_facts (n N : Nat) (b : Buf) (u : Tcp) :
    (u.connected.enqueue n N b).outcomes = u.outcomes ∧ (u.connected.enqueue n N b).heap = u.heap ∧ (u.connected.enqueue n N b).log = u.log ∧
    (u.connected.enqueue n N b).reply = u.reply ∧ (u.connected.enqueue n N b).replyQ = u.replyQ ∧
    (u.connected.enqueue n N b).disp ++ (u.connected.enqueue n N b).dispQ = u.disp ++ (u.dispQ ++ [b]) ∧ (u.connected.enqueue n N b).sock = true := by
  unfold Tcp.connected Tcp.enqueue
  by_cases hs : u.sock = true
  · rw [if_pos hs]
    simp only
    split <;> simp [Tcp.write, hs]
  · rw [if_neg hs]
    simp only
    split <;> simp [Tcp.write]

theorem TMatch.dispatch {n N : Nat} {b : Buf} {S' : List (Nat × Nat)} {l1 : Link ρ} (h : TMatch c resp e0 eEnd TT S pre u l1) (he : u.exc = none) (hS : S = S')
    (hD : (pre ++ u.dispatched ++ [b]).Pairwise Disj) :
    TMatch c resp e0 eEnd TT S' pre (u.connected.enqueue n N b) { l1 with pending := l1.pending ++ [b] } := by
  obtain ⟨f1, f2, f3, f4, f5, f6, _⟩ := enqueue_facts n N b u
  have ff := enqueue_frame n N b u
  have fm := enqueue_misc n N b u
  obtain ⟨L, q1, q2, q3⟩ := h.mem
  refine ⟨by rw [f1]; exact h.env, by rw [← hS]; exact h.sched, ⟨L, ?_, q2, ?_⟩, ?_, ?_, ?_⟩
  · rcases q1 with q1 | q1
    · exact .inl q1
    · exact absurd he q1.1
  · unfold TMem at q3 ⊢
    rw [ff.mid]
    simp only
    split at q3
    · rename_i x b' ws hx
      obtain ⟨done, rest, h', g1, g2, g3, g4, g5⟩ := q3
      refine ⟨done, rest, h', by rw [f4]; exact g1, g2, by rw [f2]; exact g3, by rw [f3]; exact g4, ?_⟩
      rw [g5, f5, f6]
      simp
    · rw [f2, f3]; exact q3
  · intro _ hn
    have hn' : u.noInv := by intro x b' ws; have := hn x b' ws; rwa [ff.mid] at this
    show l1.pending ++ [b] = _
    rw [h.pend he hn']
    have hmid : (u.connected.enqueue n N b).mid = u.mid := ff.mid
    unfold Tcp.waiting
    rw [hmid, f4, f5, f6]
    simp
  · intro x hx
    rw [show (u.connected.enqueue n N b).dispatched = u.dispatched ++ [b] from ff.dispatched, ← List.append_assoc]
    exact List.mem_append_left _ (h.ls.logs x hx)
  · intro _ x hx b' hb'
    rcases List.mem_append.1 hb' with hb' | hb'
    · exact h.ls.sep he x hx b' hb'
    · exact (List.pairwise_append.1 hD).2.2 x.buf (h.ls.logs x hx) b' hb'

theorem TMatch.flushStart {n : Nat} {l1 : Link ρ} (h : TMatch c resp e0 eEnd TT S pre u l1) : TMatch c resp e0 eEnd TT S pre (u.flushStart n) l1 := by
  have hf : (u.flushStart n).outcomes = u.outcomes ∧ (u.flushStart n).exc = u.exc ∧ (u.flushStart n).dispatched = u.dispatched ∧
      (u.flushStart n).mid = u.mid ∧ (u.flushStart n).heap = u.heap ∧ (u.flushStart n).log = u.log ∧ (u.flushStart n).reply = u.reply ∧
      (u.flushStart n).replyQ = u.replyQ ∧ (u.flushStart n).disp ++ (u.flushStart n).dispQ = u.disp ++ u.dispQ := by
    by_cases hw : u.dispQ ≠ [] ∧ u.disp = []
    · have e : u.flushStart n = ({ u with flushStarted := true, pc := .flushing } : Tcp).write n := if_pos hw
      rw [e]; simp [Tcp.write]
    · have e : u.flushStart n = ({ u with flushStarted := true, pc := .flushing } : Tcp) := if_neg hw
      rw [e]; simp
  obtain ⟨f1, f2, f3, f4, f5, f6, f7, f8, f9⟩ := hf
  refine h.move rfl f1 f2 f3 ?_ ?_
  · intro L l hl
    unfold TMem at hl ⊢
    rw [f4, f5, f6, f7, f8, f9]
    exact hl
  · intro _ hn
    refine ⟨by intro x b' ws; have := hn x b' ws; rwa [f4] at this, ?_⟩
    unfold Tcp.waiting
    rw [f4, f7, f8, f9]

theorem tcp_sim {n N : Nat} (hp : TPar n N) (CC : List (Nat × Nat)) (HH : List Buf) (hHH : HH.Pairwise Disj) :
    TSim (tcpT c n N) (linkT c resp) 0 0 (fun _ => True) (TGood TT CC HH) (TR c resp e0 eEnd n N TT CC) (TRX c resp e0 eEnd TT CC) := by
  constructor
  · intro t l b _ hG hR
    rw [Buf.shift_zero]
    obtain ⟨r1, r2, r3, r4, r5, pre, r6, r7⟩ := hR
    revert hG
    simp only [tcpT]
    cases hcr : (t.evs.foldl (Tcp.ev c n N) t.u).crashed with
    | true => intro _; trivial
    | false =>
      simp only [Bool.false_eq_true, if_false]
      have hlag0 : ∀ S', TLag c resp e0 eEnd TT S' pre t.seen { l with sched := S' } t.u := by
        intro S'
        refine ⟨by rw [r2]; exact Nat.le_refl _, { l with sched := S' }, ⟨r7.env, rfl, r7.mem, r7.pend, ⟨r7.ls.logs, r7.ls.sep⟩⟩, ?_⟩
        rw [r2, Nat.sub_self, r5]; rfl
      obtain ⟨e1, e2, e3, e4⟩ := tevs_flags (c := c) n N t.evs t.u
      have hkey : t.ever ++ [b] <+: HH → (t.evs.foldl (Tcp.ev c n N) t.u).outcomes <+: TT →
          TLag c resp e0 eEnd TT l.sched.tail pre t.seen { l with sched := l.sched.tail } (t.evs.foldl (Tcp.ev c n N) t.u) ∧
          TInv n N (t.evs.foldl (Tcp.ev c n N) t.u) := by
        intro h1 h2
        refine (hlag0 l.sched.tail).evs hp t.evs r1 ?_ h2 hcr
        rw [← r6]
        exact Pairwise.prefix hHH ((List.prefix_append _ _).trans h1)
      have hK := r3.evs (c := c) (n := n) (N := N) t.evs
      generalize hu : t.evs.foldl (Tcp.ev c n N) t.u = u1 at *
      rw [Tcp.dispatch_eq]
      cases he : u1.exc with
      | some e =>
        simp only
        intro hG
        have hG := hG _ rfl
        simp only [TcpT.threw, he, Option.isSome_some, if_true] at hG ⊢
        have hcnt := drop_snoc hG.cnt
        obtain ⟨⟨k1, l1, k2, k3⟩, g2⟩ := hkey hG.ever hG.out
        rw [he] at k3
        have hsc : l.sched.headD (0, 0) = (u1.outcomes.length - t.seen, 0) := by
          rw [r7.sched, hcnt]; rfl
        simp only [linkT, hsc, k3]
        refine ⟨_, rfl, TMatch.rx (pre := pre) rfl ?_ (k2.move ?_ rfl he.symm rfl (fun _ _ hl => hl) ?_)⟩
        · show ∀ x ∈ pre ++ u1.dispatched, x ∈ t.ever ++ [b]
          rw [e3, ← r6]
          intro x hx; simp [hx]
        · rw [r7.sched, hcnt]; rfl
        · intro _ hn; exact ⟨hn, rfl⟩
      | none =>
        simp only
        by_cases hcf : u1.sock = false ∧ t.conn = false
        · rw [if_pos hcf]
          intro hG
          have hG := hG _ rfl
          simp only [TcpT.threw, he, Option.isSome_none, Bool.false_eq_true, if_false] at hG ⊢
          have hcnt := drop_snoc hG.cnt
          have hout := hG.out
          simp only at hout
          obtain ⟨⟨k1, l1, k2, k3⟩, g2⟩ := hkey hG.ever ((List.prefix_append _ _).trans hout)
          rw [he] at k3
          have hsc : l.sched.headD (0, 0) = (u1.outcomes.length - t.seen, 1) := by
            rw [r7.sched, hcnt]; rfl
          have hmid := (hK he hcf.1).1
          have hpend := k2.pend he (noInv_none hmid)
          obtain ⟨L, q1, q2, q3⟩ := k2.mem
          obtain ⟨p1, p2⟩ := q3.plain (noInv_none hmid)
          have hw : ∃ y ys, u1.waiting ++ [b] = y :: ys := by
            cases u1.waiting with
            | nil => exact ⟨_, _, rfl⟩
            | cons y ys => exact ⟨_, _, rfl⟩
          obtain ⟨y, ys, hy⟩ := hw
          rw [hy] at hout ⊢
          simp only [List.take_succ_cons, List.take_zero, List.map_cons, List.map_nil] at hout ⊢
          obtain ⟨rest, eE, ht, hr, hf0, hf⟩ := k2.snocs hout
          have hr' : resp l1.env y.send = (none, eE) := by
            cases hr with
            | cons a b => cases b; exact a
          simp only [linkT, hsc, k3]
          have hpr : process c resp 1 { l1 with pending := l1.pending ++ [b] } = .exc (.transport 0) { l1 with pending := ys, env := eE } := by
            rw [process]
            simp only [hpend, hy, hr']
          refine ⟨_, hpr, ⟨by simp, ⟨rest, by rw [ht]; simp, hf0, hf⟩, ?_, ?_, L, ?_, q2, fun _ => ⟨p1, p2⟩⟩⟩
          · show l1.sched = _
            rw [k2.sched, r7.sched, hcnt]; rfl
          · intro x hx
            show x.buf ∈ t.ever ++ [b]
            have := k2.ls.logs x hx
            rw [e3, ← r6] at this
            exact List.mem_append_left _ this
          · intro x hx
            show x ∈ t.ever ++ [b]
            rw [r6]
            rcases q1 with q1 | q1
            · simp [q1 x hx]
            · exact absurd he q1.1
        · rw [if_neg hcf]
          intro hG
          have hG := hG _ rfl
          obtain ⟨f1, f2, f3, f4, f5, f6, f7⟩ := enqueue_facts n N b u1
          have ff := enqueue_frame n N b u1
          have fm := enqueue_misc n N b u1
          have hcnt := drop_snoc hG.cnt
          have hout := hG.out
          simp only [f1] at hout
          obtain ⟨⟨k1, l1, k2, k3⟩, g2⟩ := hkey hG.ever hout
          rw [he] at k3
          have hsc : l.sched.headD (0, 0) = (u1.outcomes.length - t.seen, 0) := by
            rw [r7.sched, hcnt]; rfl
          simp only [linkT, hsc, k3]
          have hdis : u1.dispatch n N b t.conn = .ok () (u1.connected.enqueue n N b) := by
            rw [Tcp.dispatch_eq, he]; simp only; rw [if_neg hcf]
          have hpc1 : u1.pc = .idle := e4.trans r4
          refine ⟨_, rfl, ⟨g2.dispatch hp.hn hp.hdvd hp.hN hpc1 hdis, by simp only [f1], ?_, ff.pc.trans hpc1, fm.2.trans he, pre, ?_, ?_⟩⟩
          · intro _ hs; simp only [f7] at hs; cases hs
          · show t.ever ++ [b] = _
            rw [show (u1.connected.enqueue n N b).dispatched = u1.dispatched ++ [b] from ff.dispatched, e3, r6]
            simp
          · refine k2.dispatch he ?_ ?_
            · rw [r7.sched, hcnt]; rfl
            · rw [e3, ← r6]
              exact Pairwise.prefix hHH hG.ever
  · intro t l hG hR
    obtain ⟨r1, r2, r3, r4, r5, pre, r6, r7⟩ := hR
    revert hG
    simp only [tcpT]
    cases hcr : (t.evs.foldl (Tcp.ev c n N) t.u).crashed with
    | true => intro _; trivial
    | false =>
      simp only [Bool.false_eq_true, if_false]
      have hlag0 : TLag c resp e0 eEnd TT l.sched pre t.seen l t.u := by
        refine ⟨by rw [r2]; exact Nat.le_refl _, l, ⟨r7.env, rfl, r7.mem, r7.pend, r7.ls⟩, ?_⟩
        rw [r2, Nat.sub_self, r5]; rfl
      generalize hevs : TcpT.evs { t with u := Tcp.flushStart n (t.evs.foldl (Tcp.ev c n N) t.u), plan := t.plan.tail } = es2
      obtain ⟨e1, e2, e3, e4⟩ := tevs_flags (c := c) n N t.evs t.u
      obtain ⟨fs, fc, fe⟩ := flushStart_frame n (t.evs.foldl (Tcp.ev c n N) t.u)
      obtain ⟨d1, d2, d3, d4⟩ := tevs_flags (c := c) n N es2 ((t.evs.foldl (Tcp.ev c n N) t.u).flushStart n)
      cases hcr2 : (es2.foldl (Tcp.ev c n N) ((t.evs.foldl (Tcp.ev c n N) t.u).flushStart n)).crashed with
      | true => intro _; trivial
      | false =>
        have hkey : t.ever <+: HH → (es2.foldl (Tcp.ev c n N) ((t.evs.foldl (Tcp.ev c n N) t.u).flushStart n)).outcomes <+: TT →
            TLag c resp e0 eEnd TT l.sched pre t.seen l (es2.foldl (Tcp.ev c n N) ((t.evs.foldl (Tcp.ev c n N) t.u).flushStart n)) ∧
            TInv n N (es2.foldl (Tcp.ev c n N) ((t.evs.foldl (Tcp.ev c n N) t.u).flushStart n)) := by
          intro h1 h2
          have ho : ((t.evs.foldl (Tcp.ev c n N) t.u).flushStart n).outcomes = (t.evs.foldl (Tcp.ev c n N) t.u).outcomes := by
            unfold Tcp.flushStart; simp only; split <;> rfl
          have h3 := (tevs_outcomes (c := c) n N es2 _).trans h2
          rw [ho] at h3
          have hD : (pre ++ t.u.dispatched).Pairwise Disj := by rw [← r6]; exact Pairwise.prefix hHH h1
          obtain ⟨⟨k1, l1, k2, k3⟩, g2⟩ := hlag0.evs hp t.evs r1 hD h3 hcr
          have hlag1 : TLag c resp e0 eEnd TT l.sched pre t.seen l ((t.evs.foldl (Tcp.ev c n N) t.u).flushStart n) :=
            ⟨by rw [ho]; exact k1, l1, k2.flushStart, by rw [ho, fe]; exact k3⟩
          refine hlag1.evs hp es2 (g2.flushStart hp.hn hp.hdvd hp.hN (e4.trans r4)) ?_ h2 hcr2
          rw [show ((t.evs.foldl (Tcp.ev c n N) t.u).flushStart n).dispatched = _ from fs.dispatched]
          simp only
          rw [e3]
          exact hD
        have hpc2 : (es2.foldl (Tcp.ev c n N) ((t.evs.foldl (Tcp.ev c n N) t.u).flushStart n)).pc = .flushing := d4.trans fs.pc
        have hdi2 : (es2.foldl (Tcp.ev c n N) ((t.evs.foldl (Tcp.ev c n N) t.u).flushStart n)).dispatched = t.u.dispatched :=
          d3.trans (fs.dispatched.trans e3)
        generalize hu : es2.foldl (Tcp.ev c n N) ((t.evs.foldl (Tcp.ev c n N) t.u).flushStart n) = u1 at *
        simp only [Bool.false_eq_true, if_false]
        cases hfe : u1.flushEnd with
        | loops => intro _; trivial
        | ub => intro _; trivial
        | ok a u' =>
          intro hG
          have hG := hG _ rfl
          have hu' : u' = { u1 with pc := .idle } := by
            rcases flushEnd_cases u1 with hd | hd | ⟨e, hd⟩ <;> rw [hd] at hfe <;> cases hfe
            rfl
          subst hu'
          obtain ⟨⟨k1, l1, k2, k3⟩, g2⟩ := hkey hG.ever hG.out
          obtain ⟨i1, i2, i3, i4, i5⟩ := g2.flushEnd hp.h0 hpc2 hfe
          rw [i2] at k3
          have hmid : u1.mid = none := by
            have := g2.rops
            rw [i4] at this
            cases hm : u1.mid with
            | none => rfl
            | some m => rw [hm] at this; simp at this
          have hops : u1.sendOps = [] ∧ u1.recvOps = [] := by
            have h1 := g2.rops
            have h2 := g2.sops
            rw [i4] at h1
            rw [i3] at h2
            refine ⟨by simpa using h2, ?_⟩
            simp at h1
            exact h1.1
          have hpe : l1.pending = [] := by
            rw [k2.pend i2 (noInv_none hmid)]
            simp [Tcp.waiting, i3, i4, i5, g2.rq i4]
          have := (process_all (c := c) (resp := resp) _ l).1 l1 k3 hpe
          refine ⟨l1, this, ⟨i1, rfl, fun _ _ => ⟨hmid, .inr hops⟩, rfl, i2, pre, ?_, ?_⟩⟩
          · show t.ever = pre ++ u1.dispatched
            rw [hdi2]; exact r6
          · exact k2.move r7.sched.symm rfl rfl rfl (fun _ _ hl => hl) (fun _ hn => ⟨hn, rfl⟩)
        | exc e u' =>
          intro hG
          have hG := hG _ rfl
          have hu' : u' = { u1 with pc := .thrown } ∧ u1.exc = some e := by
            unfold Tcp.flushEnd at hfe
            split at hfe
            · split at hfe
              · rename_i e' hx
                cases hfe
                exact ⟨by simp [hx], hx⟩
              · cases hfe
            · cases hfe
          obtain ⟨rfl, hex⟩ := hu'
          obtain ⟨⟨k1, l1, k2, k3⟩, g2⟩ := hkey hG.ever hG.out
          rw [hex] at k3
          have := (process_all (c := c) (resp := resp) _ l).2 e l1 k3
          refine ⟨l1, this, TMatch.rx (pre := pre) rfl ?_ ?_⟩
          · show ∀ x ∈ pre ++ u1.dispatched, x ∈ t.ever
            rw [hdi2, ← r6]
            exact fun _ hx => hx
          · exact k2.move r7.sched.symm rfl rfl rfl (fun _ _ hl => hl) (fun _ hn => ⟨hn, rfl⟩)
  · intro t l hG hR
    obtain ⟨r1, r2, r3, r4, L, q1, q2, q3⟩ := hR
    have hd : t.u.handler.dirty = false := hG.dirty
    have hs : t.u.handler.stale = false := hG.stale
    have hd' := hd
    have hs' := hs
    simp [Tcp.handler] at hd' hs'
    obtain ⟨p1, p2⟩ := q3 hd'.2
    have hmid : t.u.handler.mid = none := hd'.2
    refine ⟨.handler hp.hn hd hs, r1, ?_, rfl, rfl, t.ever, by simp [tcpT, Tcp.handler], r2, r3, ⟨L, .inl q1, q2, .mk' ⟨p1, p2⟩ (noInv_none hmid)⟩, ?_, ?_, ?_⟩
    · intro _ _
      refine ⟨hmid, .inr ⟨?_, ?_⟩⟩
      · simp [tcpT, Tcp.handler, Tcp.close, hd'.1.1.2]
      · simp [tcpT, Tcp.handler, Tcp.close, hd'.1.2]
    · intro _ _
      simp [Tcp.handler, Tcp.waiting, linkT, tcpT, hs'.2]
    · intro x hx; exact List.mem_append_left _ (r4 x hx)
    · intro _ x _ b hb; cases hb
  · intro t b t1 h hG
    simp only [tcpT] at h
    obtain ⟨e1, e2, _⟩ := tevs_flags (c := c) n N t.evs t.u
    cases hcr : (t.evs.foldl (Tcp.ev c n N) t.u).crashed with
    | true => rw [hcr] at h; cases h
    | false =>
      rw [hcr] at h
      simp only [Bool.false_eq_true, if_false] at h
      rcases dispatch_cases n N b t.conn (t.evs.foldl (Tcp.ev c n N) t.u) with ⟨_, hd⟩ | ⟨e, hd | hd⟩ <;> rw [hd] at h
      · cases h
        have ff := enqueue_frame n N b (t.evs.foldl (Tcp.ev c n N) t.u)
        have f1 := (enqueue_facts n N b (t.evs.foldl (Tcp.ev c n N) t.u)).1
        have hout := hG.out
        have hdi := hG.dirty
        have hst := hG.stale
        simp only [f1, ff.dirty, ff.stale] at hout hdi hst
        exact ⟨(tevs_outcomes n N _ _).trans hout, (List.prefix_append _ _).trans hG.cnt, (List.prefix_append _ _).trans hG.ever,
          e1 ▸ hdi, e2 ▸ hst⟩
      · cases h
        have hout := hG.out
        have hdi := hG.dirty
        have hst := hG.stale
        have hc1 := hG.cnt
        have hc2 := hG.ever
        unfold TcpT.threw at hout hdi hst hc1 hc2
        split at hout
        · rename_i hx
          simp only [hx, if_true] at hdi hst hc1 hc2
          exact ⟨(tevs_outcomes n N _ _).trans hout, (List.prefix_append _ _).trans hc1, (List.prefix_append _ _).trans hc2,
            e1 ▸ hdi, e2 ▸ hst⟩
        · rename_i hx
          simp only [hx, if_false] at hdi hst hc1 hc2
          exact ⟨(tevs_outcomes n N _ _).trans ((List.prefix_append _ _).trans hout), (List.prefix_append _ _).trans hc1,
            (List.prefix_append _ _).trans hc2, e1 ▸ hdi, e2 ▸ hst⟩
      · cases h
        have hout := hG.out
        have hdi := hG.dirty
        have hst := hG.stale
        have hc1 := hG.cnt
        have hc2 := hG.ever
        unfold TcpT.threw at hout hdi hst hc1 hc2
        split at hout
        · rename_i hx
          simp only [hx, if_true] at hdi hst hc1 hc2
          exact ⟨(tevs_outcomes n N _ _).trans hout, (List.prefix_append _ _).trans hc1, (List.prefix_append _ _).trans hc2,
            e1 ▸ hdi, e2 ▸ hst⟩
        · rename_i hx
          simp only [hx, if_false] at hdi hst hc1 hc2
          exact ⟨(tevs_outcomes n N _ _).trans ((List.prefix_append _ _).trans hout), (List.prefix_append _ _).trans hc1,
            (List.prefix_append _ _).trans hc2, e1 ▸ hdi, e2 ▸ hst⟩
  · intro t t1 h hG
    simp only [tcpT] at h
    obtain ⟨e1, e2, _⟩ := tevs_flags (c := c) n N t.evs t.u
    cases hcr : (t.evs.foldl (Tcp.ev c n N) t.u).crashed with
    | true => rw [hcr] at h; cases h
    | false =>
      rw [hcr] at h
      simp only [Bool.false_eq_true, if_false] at h
      generalize hevs : TcpT.evs { t with u := Tcp.flushStart n (t.evs.foldl (Tcp.ev c n N) t.u), plan := t.plan.tail } = es2 at h
      obtain ⟨d1, d2, _⟩ := tevs_flags (c := c) n N es2 ((t.evs.foldl (Tcp.ev c n N) t.u).flushStart n)
      obtain ⟨fs, fc, fe⟩ := flushStart_frame n (t.evs.foldl (Tcp.ev c n N) t.u)
      have ho : ((t.evs.foldl (Tcp.ev c n N) t.u).flushStart n).outcomes = (t.evs.foldl (Tcp.ev c n N) t.u).outcomes := by
        unfold Tcp.flushStart; simp only; split <;> rfl
      have hoo : t.u.outcomes <+: (es2.foldl (Tcp.ev c n N) ((t.evs.foldl (Tcp.ev c n N) t.u).flushStart n)).outcomes :=
        (tevs_outcomes n N t.evs t.u).trans (ho ▸ tevs_outcomes n N es2 _)
      have hdd : (es2.foldl (Tcp.ev c n N) ((t.evs.foldl (Tcp.ev c n N) t.u).flushStart n)).dirty = t.u.dirty := d1.trans (fs.dirty.trans e1)
      have hss : (es2.foldl (Tcp.ev c n N) ((t.evs.foldl (Tcp.ev c n N) t.u).flushStart n)).stale = t.u.stale := d2.trans (fs.stale.trans e2)
      generalize hu : es2.foldl (Tcp.ev c n N) ((t.evs.foldl (Tcp.ev c n N) t.u).flushStart n) = u1 at *
      cases hcr2 : u1.crashed with
      | true => rw [hcr2] at h; cases h
      | false =>
        rw [hcr2] at h
        simp only [Bool.false_eq_true, if_false] at h
        rcases flushEnd_cases u1 with hd | hd | ⟨e, hd⟩ <;> rw [hd] at h <;> cases h
        · exact ⟨hoo.trans hG.out, hG.cnt, hG.ever, hdd ▸ hG.dirty, hss ▸ hG.stale⟩
        · exact ⟨hoo.trans hG.out, hG.cnt, hG.ever, hdd ▸ hG.dirty, hss ▸ hG.stale⟩
  · intro t hG
    have hd := hG.dirty
    have hs := hG.stale
    simp [tcpT, Tcp.handler] at hd hs
    exact ⟨hG.out, hG.cnt, hG.ever, hd.1.1.1, hs.1⟩

end
end
end Verif
