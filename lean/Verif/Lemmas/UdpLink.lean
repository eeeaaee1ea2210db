import Verif.Lemmas.Udp
import Verif.Lemmas.Sim
import Verif.Props.C15
/-!
The UDP client is an instance of the generic transport `linkT`: a run of the packet builder on the UDP state machine
corresponds to one on `linkT`, with the datagrams received as answers, as long as the exception handler never runs
with operations pending.
-/

set_option autoImplicit false
set_option linter.unusedSimpArgs false

namespace Verif

section
variable {ρ : Type} {c : Cfg} {resp : ρ → List W → Option (List W) × ρ}

theorem process_add (m n : Nat) (l : Link ρ) : process c resp (m + n) l =
    match process c resp m l with
    | .ok _ l1 => process c resp n l1
    | r => r := by
  induction m generalizing l with
  | zero => rw [Nat.zero_add]; rfl
  | succ m ih =>
    rw [Nat.succ_add, process, process]
    cases hp : l.pending with
    | nil =>
      simp only
      cases n with
      | zero => rfl
      | succ n => rw [process, hp]
    | cons b bs =>
      simp only
      cases resp l.env b.send with
      | mk r e =>
        cases r with
        | none => rfl
        | some ws =>
          simp only
          cases receiveReply c l.heap b ws with
          | mk o h =>
            cases o with
            | ok => exact ih _
            | err e => rfl
            | ub => rfl

/-- Processing more than there is changes nothing. -/
theorem process_all (n : Nat) (l : Link ρ) : (∀ l1, process c resp n l = .ok () l1 → l1.pending = [] → process c resp l.pending.length l = .ok () l1) ∧
    ∀ e l1, process c resp n l = .exc e l1 → process c resp l.pending.length l = .exc e l1 := by
  induction n generalizing l with
  | zero =>
    refine ⟨?_, fun e l1 h => by cases h⟩
    intro l1 h h1
    cases h
    rw [h1]; rfl
  | succ n ih =>
    rw [process]
    cases hp : l.pending with
    | nil => exact ⟨fun l1 h _ => (by cases h; rfl), fun e l1 h => (by cases h)⟩
    | cons b bs =>
      simp only [List.length_cons]
      rw [process, hp]
      simp only
      cases resp l.env b.send with
      | mk r e =>
        cases r with
        | none => exact ⟨fun l1 h => (by cases h), fun e l1 h => h⟩
        | some ws =>
          simp only
          cases receiveReply c l.heap b ws with
          | mk o h =>
            cases o with
            | ok => exact ih { l with heap := h, pending := bs, env := e, log := l.log ++ [⟨b, ws, .ok⟩] }
            | err e => exact ⟨fun l1 h => (by cases h), fun e l1 h => h⟩
            | ub => exact ⟨fun l1 h => (by cases h), fun e l1 h => (by cases h)⟩

end

/-- The environment `resp`, asked in this order from state `e` on, gives these answers and ends in `e'`. -/
inductive Follows {ρ : Type} (resp : ρ → List W → Option (List W) × ρ) : ρ → List (Buf × Option (List W)) → ρ → Prop
  | nil (e : ρ) : Follows resp e [] e
  | cons {e e1 e' : ρ} {b : Buf} {o : Option (List W)} {l : List (Buf × Option (List W))} :
      resp e b.send = (o, e1) → Follows resp e1 l e' → Follows resp e ((b, o) :: l) e'

section
variable {ρ : Type} {resp : ρ → List W → Option (List W) × ρ}

theorem Follows.append {e e1 e2 : ρ} {a b : List (Buf × Option (List W))} (h : Follows resp e a e1) (h' : Follows resp e1 b e2) :
    Follows resp e (a ++ b) e2 := by
  induction h with
  | nil => exact h'
  | cons hr _ ih => exact .cons hr (ih h')

theorem Follows.det {e e1 e2 : ρ} {a : List (Buf × Option (List W))} (h : Follows resp e a e1) (h' : Follows resp e a e2) : e1 = e2 := by
  induction h with
  | nil => cases h'; rfl
  | cons hr _ ih =>
    cases h' with
    | cons hr' h'' =>
      rw [hr] at hr'
      cases hr'
      exact ih h''

end

section
variable {ρ : Type} {resp : ρ → List W → Option (List W) × ρ} {e0 eEnd : ρ}

/-- Memories, where a refused reply has not been reported yet. -/
def MemRel (c : Cfg) (u : Udp) (l : Link ρ) : Prop :=
  match u.mid with
  | some (.invalid e ws) => ∃ b, u.reply = some b ∧ receiveReply c l.heap b ws = (.err e, u.heap) ∧ u.log = l.log ++ [⟨b, ws, .err e⟩]
  | _ => u.heap = l.heap ∧ u.log = l.log

/-- Corresponding states. `TT`: all that ever happens to packets; `S`: the rest of the schedule. -/
structure Match (c : Cfg) (resp : ρ → List W → Option (List W) × ρ) (e0 eEnd : ρ) (TT : List (Buf × Option (List W))) (S : List (Nat × Nat)) (u : Udp) (l : Link ρ) : Prop where
  env : ∃ rest, TT = u.outcomes ++ rest ∧ Follows resp e0 u.outcomes l.env ∧ Follows resp l.env rest eEnd
  sched : l.sched = S
  mem : MemRel c u l
  pend : u.exc = none → l.pending = u.waiting

/-- `u` corresponds to `l0` after it has processed what has happened since. -/
def Lag (c : Cfg) (resp : ρ → List W → Option (List W) × ρ) (e0 eEnd : ρ) (TT : List (Buf × Option (List W))) (S : List (Nat × Nat)) (seen : Nat) (l0 : Link ρ) (u : Udp) : Prop :=
  seen ≤ u.outcomes.length ∧ ∃ l1, Match c resp e0 eEnd TT S u l1 ∧
    process c resp (u.outcomes.length - seen) l0 = match u.exc with
      | none => .ok () l1
      | some e => .exc e l1

section
variable {c : Cfg} {TT : List (Buf × Option (List W))} {S : List (Nat × Nat)} {seen : Nat} {l0 : Link ρ} {u u' : Udp}

theorem Lag.same (h : Lag c resp e0 eEnd TT S seen l0 u) (ho : u'.outcomes = u.outcomes) (he : u'.exc = u.exc)
    (hm : ∀ l : Link ρ, MemRel c u l → MemRel c u' l) (hw : u'.exc = none → u'.waiting = u.waiting) : Lag c resp e0 eEnd TT S seen l0 u' := by
  obtain ⟨h1, l1, h2, h3⟩ := h
  refine ⟨by rw [ho]; exact h1, l1, ⟨by rw [ho]; exact h2.env, h2.sched, hm _ h2.mem, ?_⟩, by rw [ho, he]; exact h3⟩
  intro hx
  rw [hw hx]
  exact h2.pend (he ▸ hx)

theorem MemRel.plain (h : MemRel c u l0) (hm : ∀ e ws, u.mid ≠ some (.invalid e ws)) : u.heap = l0.heap ∧ u.log = l0.log := by
  unfold MemRel at h
  split at h
  · rename_i e ws hx; exact absurd hx (hm e ws)
  · exact h

theorem MemRel.mk' (h : u.heap = l0.heap ∧ u.log = l0.log) (hm : ∀ e ws, u.mid ≠ some (.invalid e ws)) : MemRel c u l0 := by
  unfold MemRel
  split
  · rename_i e ws hx; exact absurd hx (hm e ws)
  · exact h

theorem Match.snoc {x : Buf × Option (List W)} (h : Match c resp e0 eEnd TT S u l0) (hp : u.outcomes ++ [x] <+: TT) :
    ∃ t e1, TT = u.outcomes ++ x :: t ∧ resp l0.env x.1.send = (x.2, e1) ∧ Follows resp e0 (u.outcomes ++ [x]) e1 ∧
      Follows resp e1 t eEnd := by
  obtain ⟨t, ht⟩ := hp
  obtain ⟨rest, h1, h0, h2⟩ := h.env
  rw [h1, List.append_assoc] at ht
  have := List.append_cancel_left ht
  rw [← this] at h2
  cases h2 with
  | cons a b => exact ⟨t, _, by rw [h1, ← this]; rfl, a, h0.append (.cons a (.nil _)), b⟩

theorem Lag.fail (h : Lag c resp e0 eEnd TT S seen l0 u) (he : u.exc = none) (hm : ∀ e ws, u.mid ≠ some (.invalid e ws))
    (hm' : ∀ e ws, u'.mid ≠ some (.invalid e ws)) (hw : u.waiting ≠ []) (ho : u'.outcomes = u.outcomes ++ u.lost)
    (he' : u'.exc = some (.transport 0)) (hh : u'.heap = u.heap) (hl : u'.log = u.log) (hT : u'.outcomes <+: TT) : Lag c resp e0 eEnd TT S seen l0 u' := by
  obtain ⟨h1, l1, h2, h3⟩ := h
  rw [he] at h3
  have hp := h2.pend he
  cases hpe : u.waiting with
  | nil => exact absurd hpe hw
  | cons b bs =>
    have hlo : u.lost = [(b, none)] := by simp [Udp.lost, hpe]
    rw [hlo] at ho
    obtain ⟨t, e1, ht, hr, hf0, hf⟩ := h2.snoc (ho ▸ hT)
    obtain ⟨p1, p2⟩ := h2.mem.plain hm
    have hlen : u'.outcomes.length = u.outcomes.length + 1 := by rw [ho]; simp
    refine ⟨by omega, { l1 with pending := l1.pending.tail, env := e1 }, ⟨⟨t, ?_, ho ▸ hf0, hf⟩, h2.sched, .mk' ⟨hh.trans p1, hl.trans p2⟩ hm', ?_⟩, ?_⟩
    · rw [ho, ht]; simp
    · rw [he']; intro hx; cases hx
    · have : u'.outcomes.length - seen = (u.outcomes.length - seen) + 1 := by omega
      rw [this, process_add, h3, he']
      simp only
      rw [process, hp, hpe]
      simp only at hr
      simp only [hr, List.tail_cons]

theorem waiting_next (N : Nat) (u : Udp) (hm : u.mid = none) :
    (u.next N).waiting = u.reply.toList ++ (u.replyQ ++ u.dispQ) := by
  unfold Udp.next Udp.waiting
  cases hq : u.dispQ with
  | nil => simp [hm, hq]
  | cons b q =>
    simp only
    split <;> simp [Udp.write, hm, hq]

theorem Lag.sendDone {N : Nat} {ok : Bool} (h : Lag c resp e0 eEnd TT S seen l0 u) (hi : UInv N u) (hm : u.mid = none)
    (hT : (u.sendDone N ok).outcomes <+: TT) : Lag c resp e0 eEnd TT S seen l0 (u.sendDone N ok) := by
  have hmi : ∀ e ws, u.mid ≠ some (.invalid e ws) := by rw [hm]; intro _ _ hx; cases hx
  have hf := Frame.sendDone N ok u
  have hmi' : ∀ e ws, (u.sendDone N ok).mid ≠ some (.invalid e ws) := by rw [hf.mid]; exact hmi
  have hmr : ∀ l : Link ρ, MemRel c u l → MemRel c (u.sendDone N ok) l := by
    intro l hl
    refine .mk' ?_ hmi'
    rw [hf.heap, hf.log]
    exact hl.plain hmi
  rcases sendDone_exc N ok u with ⟨a, b⟩ | ⟨a, b, d, f⟩
  · refine h.same b a hmr ?_
    intro hx
    have hx' : u.exc = none := a ▸ hx
    revert hx
    unfold Udp.sendDone
    cases hs : u.sendOps with
    | nil => intro _; rfl
    | cons x ops =>
      simp only [hx', Option.isSome_none, Bool.false_eq_true, if_false]
      split
      · intro hx; cases hx
      · cases hd : u.disp with
        | none => intro _; rw [Udp.waiting, Udp.waiting, hd]
        | some b =>
          simp only
          split
          · intro hx; cases hx
          · intro _
            rw [waiting_next]
            · cases hr : u.reply with
              | some r => simp [Udp.waiting, hm, hr, hd]
              | none =>
                have := hi.rq hr
                simp [Udp.waiting, Udp.read, hm, hr, hd, this]
            · cases u.reply <;> exact hm
  · refine h.fail a hmi hmi' ?_ d b hf.heap hf.log hT
    have := hi.sops
    cases hd : u.disp with
    | none =>
      rw [hd] at this
      simp at this
      exact absurd this f
    | some b => simp [Udp.waiting, hd]

theorem Lag.recvBegin {N : Nat} {r : Option (List W)} (h : Lag c resp e0 eEnd TT S seen l0 u) (hi : UInv N u) (hm : u.mid = none)
    (hT : (u.recvBegin c r).outcomes <+: TT) (hc' : (u.recvBegin c r).crashed = false) :
    Lag c resp e0 eEnd TT S seen l0 (u.recvBegin c r) := by
  have hmi : ∀ e ws, u.mid ≠ some (.invalid e ws) := by rw [hm]; intro _ _ hx; cases hx
  unfold Udp.recvBegin at hT hc' ⊢
  cases hs : u.recvOps with
  | nil => exact h
  | cons x ops =>
    have hi8 := hi.rops
    rw [hs] at hT hc' hi8
    simp only at hT hc' ⊢
    cases he : u.exc with
    | some e =>
      simp only [Option.isSome_some, if_true]
      refine h.same rfl he.symm (fun l hl => .mk' (hl.plain hmi) hmi) ?_
      intro hx; cases hx
    | none =>
      simp only [he, Option.isSome_none, Bool.false_eq_true, if_false] at hT hc' ⊢
      have hrp : u.reply ≠ none := by
        intro hx; rw [hx] at hi8; simp at hi8
      split at hT
      · rename_i hd
        simp only [hd, if_true] at hc' ⊢
        refine h.fail he hmi hmi ?_ rfl rfl rfl rfl hT
        cases hr : u.reply with
        | none => exact absurd hr hrp
        | some b => simp [Udp.waiting, hr, hm]
      · rename_i hd
        simp only [hd, if_false] at hc' ⊢
        cases hb : u.reply with
        | none => exact absurd hb hrp
        | some b =>
          rw [hb] at hT hc'
          simp only at hT hc' ⊢
          cases r with
          | none =>
            refine h.same rfl he.symm (fun l hl => .mk' (hl.plain hmi) (by intro _ _ hx; cases hx)) ?_
            intro _
            simp [Udp.waiting, Udp.close, hm, hb]
          | some ws =>
            simp only at hT hc' ⊢
            obtain ⟨h1, l1, h2, h3⟩ := h
            obtain ⟨p1, p2⟩ := h2.mem.plain hmi
            rw [he] at h3
            cases hre : receiveReply c u.heap b ws with
            | mk o hp =>
              rw [hre] at hT hc'
              cases o with
              | ok =>
                simp only at hT hc' ⊢
                obtain ⟨t, e1, ht, hrp2, hf0, hf⟩ := h2.snoc hT
                simp only at hrp2
                have hpd := h2.pend he
                have hw : u.waiting = b :: (u.replyQ ++ (u.disp.toList ++ u.dispQ)) := by simp [Udp.waiting, hm, hb]
                refine ⟨by simp; omega, { l1 with heap := hp, pending := l1.pending.tail, env := e1, log := l1.log ++ [⟨b, ws, .ok⟩] },
                  ⟨⟨t, ?_, hf0, hf⟩, h2.sched, .mk' ⟨rfl, by rw [p2]⟩ (by intro _ _ hx; cases hx), ?_⟩, ?_⟩
                · rw [ht]; simp
                · intro _; rw [hpd, hw]; simp [Udp.waiting]
                · have : (u.outcomes ++ [(b, some ws)]).length - seen = (u.outcomes.length - seen) + 1 := by simp; omega
                  rw [this, process_add, h3]
                  simp only
                  rw [process, hpd, hw]
                  simp only [hrp2, List.tail_cons]
                  rw [← p1, hre]
                  rfl
              | err e =>
                refine ⟨h1, l1, ⟨h2.env, h2.sched, ⟨b, rfl, by rw [← p1]; exact hre, by rw [p2]⟩, ?_⟩, ?_⟩
                · intro _; rw [h2.pend he]; simp [Udp.waiting, hm, hb]
                · exact h3
              | ub => exact absurd hc' (by simp)

theorem Lag.recvEnd {N : Nat} (h : Lag c resp e0 eEnd TT S seen l0 u) (hi : UInv N u) (hT : (u.recvEnd N).outcomes <+: TT) :
    Lag c resp e0 eEnd TT S seen l0 (u.recvEnd N) := by
  unfold Udp.recvEnd at hT ⊢
  cases hm : u.mid with
  | none => exact h
  | some m =>
    rw [hm] at hT
    cases m with
    | failed =>
      have he : u.exc = none := by
        cases hx : u.exc with
        | none => rfl
        | some e => have := hi.midx (by simp [hx]); simp [hm] at this
      refine h.fail he (by rw [hm]; intro _ _ hx; cases hx) (by intro _ _ hx; cases hx) ?_ rfl rfl rfl rfl hT
      have := hi.rops' he
      cases hr : u.reply with
      | none => rw [hr, hm] at this; simp at this
      | some b => simp [Udp.waiting, hr, hm]
    | invalid e ws =>
      have he : u.exc = none := by
        cases hx : u.exc with
        | none => rfl
        | some e => have := hi.midx (by simp [hx]); simp [hm] at this
      obtain ⟨h1, l1, h2, h3⟩ := h
      rw [he] at h3
      have hmem := h2.mem
      unfold MemRel at hmem
      rw [hm] at hmem
      obtain ⟨b, q1, q2, q3⟩ := hmem
      simp only [q1, Option.toList_some, List.map_cons, List.map_nil] at hT ⊢
      obtain ⟨t, e1, ht, hrp2, hf0, hf⟩ := h2.snoc hT
      simp only at hrp2
      have hpd := h2.pend he
      have hw : u.waiting = b :: (u.replyQ ++ (u.disp.toList ++ u.dispQ)) := by simp [Udp.waiting, hm, q1]
      refine ⟨by simp; omega, { l1 with heap := u.heap, pending := l1.pending.tail, env := e1, log := l1.log ++ [⟨b, ws, .err e⟩] },
        ⟨⟨t, ?_, hf0, hf⟩, h2.sched, .mk' ⟨rfl, q3⟩ (by intro _ _ hx; cases hx), ?_⟩, ?_⟩
      · rw [ht]; simp
      · intro hx; cases hx
      · have : (u.outcomes ++ [(b, some ws)]).length - seen = (u.outcomes.length - seen) + 1 := by simp; omega
        rw [this, process_add, h3]
        simp only
        rw [process, hpd, hw]
        simp only [hrp2, List.tail_cons]
        rw [q2]
    | last =>
      simp only at hT ⊢
      have hpl : ∀ l : Link ρ, MemRel c u l → u.heap = l.heap ∧ u.log = l.log := fun l hl => hl.plain (by rw [hm]; intro _ _ hx; cases hx)
      cases he : u.exc with
      | some e =>
        refine h.same rfl he.symm (fun l hl => .mk' (hpl l hl) (by intro _ _ hx; cases hx)) ?_
        intro hx; cases hx
      | none =>
        simp only [Option.isSome_none, Bool.false_eq_true, if_false]
        obtain ⟨_, _, f3, f4, f5, _, f7, f8⟩ := Frame.pop N { u with exc := none, mid := none }
        refine h.same f8 (f7.trans he.symm) (fun l hl => .mk' (by rw [f4, f5]; exact hpl l hl) (by rw [f3]; intro _ _ hx; cases hx)) ?_
        intro _
        have hu : ({ u with exc := none, mid := none } : Udp) = { u with mid := none } := by rw [← he]
        rw [hu]
        have hW : u.waiting = u.replyQ ++ (u.disp.toList ++ u.dispQ) := by simp [Udp.waiting, hm]
        rw [hW, advance_eq]
        have hp : ({ u with mid := none } : Udp).pop.waiting = u.replyQ ++ (u.disp.toList ++ u.dispQ) ∧ ({ u with mid := none } : Udp).pop.mid = none := by
          unfold Udp.pop
          cases hq : u.replyQ <;> simp [Udp.waiting, Udp.read]
        have hfin : ∀ v : Udp, (if v.disp.isNone && v.reply.isNone then { v with deadline := .armed, flushDone := true } else v).waiting = v.waiting := by
          intro v; split <;> rfl
        dsimp only
        rw [hfin]
        split
        · rename_i hd
          rw [waiting_next _ _ hp.2, ← hp.1]
          have : ({ u with mid := none } : Udp).pop.disp = none := by simpa using hd
          simp [Udp.waiting, hp.2, this]
        · exact hp.1

theorem Lag.ev {N : Nat} {e : Ev} (h : Lag c resp e0 eEnd TT S seen l0 u) (hi : UInv N u) (hT : (u.ev c N e).outcomes <+: TT) (hc : u.crashed = false)
    (hc' : (u.ev c N e).crashed = false) : Lag c resp e0 eEnd TT S seen l0 (u.ev c N e) := by
  unfold Udp.ev at hT hc' ⊢
  simp only [hc, Bool.false_eq_true, if_false] at hT hc' ⊢
  cases hm : u.mid with
  | none =>
    rw [hm] at hT hc'
    cases e with
    | sendDone ok => exact h.sendDone hi hm hT
    | recvBegin r => exact h.recvBegin hi hm hT hc'
    | timeout =>
      simp only [Udp.timeout]
      cases hd : u.deadline with
      | armed => exact h.same rfl rfl (fun l hl => hl) (fun _ => rfl)
      | inf => exact h
    | recvEnd => exact h
  | some m =>
    rw [hm] at hT hc'
    cases e with
    | sendDone ok => exact h
    | recvBegin r => exact h
    | timeout => exact h
    | recvEnd => exact h.recvEnd hi hT

theorem ev_outcomes (N : Nat) (u : Udp) (e : Ev) : u.outcomes <+: (u.ev c N e).outcomes := by
  unfold Udp.ev
  split
  · exact List.prefix_refl _
  · cases hm : u.mid with
    | none =>
      cases e with
      | sendDone ok =>
        rcases sendDone_exc N ok u with ⟨_, b⟩ | ⟨_, _, b, _⟩
        · simp only [b]; exact List.prefix_refl _
        · simp only [b]; exact List.prefix_append _ _
      | recvBegin r =>
        simp only [Udp.recvBegin]
        repeat' split
        all_goals first | exact List.prefix_refl _ | exact List.prefix_append _ _
      | timeout => simp only [Udp.timeout]; cases u.deadline <;> exact List.prefix_refl _
      | recvEnd => exact List.prefix_refl _
    | some m =>
      cases e with
      | recvEnd =>
        simp only [Udp.recvEnd, hm]
        cases m with
        | failed => exact List.prefix_append _ _
        | invalid e ws => exact List.prefix_append _ _
        | last =>
          simp only
          split
          · exact List.prefix_refl _
          · rw [(Frame.pop N _).2.2.2.2.2.2.2]; exact List.prefix_refl _
      | sendDone ok => exact List.prefix_refl _
      | timeout => exact List.prefix_refl _
      | recvBegin r => exact List.prefix_refl _

theorem evs_outcomes (N : Nat) (es : List Ev) (u : Udp) : u.outcomes <+: (es.foldl (Udp.ev c N) u).outcomes := by
  induction es generalizing u with
  | nil => exact List.prefix_refl _
  | cons e es ih => exact (ev_outcomes N u e).trans (ih _)

theorem evs_crashed (N : Nat) (es : List Ev) {u : Udp} (h : u.crashed = true) : (es.foldl (Udp.ev c N) u).crashed = true := by
  induction es generalizing u with
  | nil => exact h
  | cons e es ih => exact ih (by unfold Udp.ev; rw [if_pos h]; exact h)

theorem evs_dirty (N : Nat) (es : List Ev) (u : Udp) : (es.foldl (Udp.ev c N) u).dirty = u.dirty := by
  induction es generalizing u with
  | nil => rfl
  | cons e es ih => exact (ih _).trans (ev_dirty c N u e)

theorem Lag.evs {N : Nat} (h0 : 0 < N) (hN : N < 2 ^ 32) (es : List Ev) (h : Lag c resp e0 eEnd TT S seen l0 u) (hi : UInv N u)
    (hT : (es.foldl (Udp.ev c N) u).outcomes <+: TT) (hc : (es.foldl (Udp.ev c N) u).crashed = false) :
    Lag c resp e0 eEnd TT S seen l0 (es.foldl (Udp.ev c N) u) ∧ UInv N (es.foldl (Udp.ev c N) u) := by
  induction es generalizing u with
  | nil => exact ⟨h, hi⟩
  | cons e es ih =>
    have hnc : ∀ v : Udp, (es.foldl (Udp.ev c N) v).crashed = false → v.crashed = false := by
      intro v hv
      cases hx : v.crashed with
      | false => rfl
      | true => rw [evs_crashed N es hx] at hv; cases hv
    have h1 := hnc _ hc
    have h2 : u.crashed = false := by
      cases hx : u.crashed with
      | false => rfl
      | true => rw [evs_crashed N (e :: es) hx] at hc; cases hc
    exact ih (h.ev hi ((evs_outcomes N es _).trans hT) h2 h1) ((hi.ev h0 hN h2).1 h1) hT hc

/-- What is assumed of the final state: `TT`, `CC` are the records at the end of the run. -/
structure UGood (TT : List (Buf × Option (List W))) (CC : List Nat) (t : UdpT) : Prop where
  out : t.u.outcomes <+: TT
  cnt : t.counts <+: CC
  dirty : t.u.dirty = false

/-- Corresponding transports between an exception and the handler. -/
structure URX (c : Cfg) (resp : ρ → List W → Option (List W) × ρ) (e0 eEnd : ρ) (N : Nat) (TT : List (Buf × Option (List W))) (CC : List Nat) (t : UdpT) (l : Link ρ) : Prop where
  inv : UInv N t.u
  seen : t.seen = t.u.outcomes.length
  m : Match c resp e0 eEnd TT ((CC.drop t.counts.length).map fun n => (n, 0)) t.u l

/-- Corresponding transports. -/
def UR (c : Cfg) (resp : ρ → List W → Option (List W) × ρ) (e0 eEnd : ρ) (N : Nat) (TT : List (Buf × Option (List W))) (CC : List Nat) (t : UdpT) (l : Link ρ) : Prop :=
  URX c resp e0 eEnd N TT CC t l ∧ t.u.exc = none

instance {N : Nat} {CC : List Nat} : SubR (UR c resp e0 eEnd N TT CC) (URX c resp e0 eEnd N TT CC) := ⟨fun h => h.1⟩

theorem drop_counts {CC a : List Nat} {x : Nat} (h : a ++ [x] <+: CC) : CC.drop a.length = x :: CC.drop (a ++ [x]).length := by
  obtain ⟨t, rfl⟩ := h
  simp

theorem dispatch_exc {N : Nat} {b : Buf} {u u' : Udp} {e : Exc} (h : u.dispatch N b = .exc e u') : u.exc = some e ∧ u' = u := by
  unfold Udp.dispatch at h
  cases he : u.exc with
  | some x => rw [he] at h; cases h; exact ⟨rfl, rfl⟩
  | none => rw [he] at h; simp only at h; split at h <;> cases h

theorem udp_sim (N : Nat) (h0 : 0 < N) (hN : N < 2 ^ 32) (CC : List Nat) :
    TSim (udpT c N) (linkT c resp) 0 0 (fun _ => True) (UGood TT CC) (UR c resp e0 eEnd N TT CC) (URX c resp e0 eEnd N TT CC) := by
  constructor
  · intro t l b _ hG hR
    rw [Buf.shift_zero]
    obtain ⟨⟨r1, r2, r3⟩, r4⟩ := hR
    revert hG
    simp only [udpT]
    cases hcr : ((t.plan.headD []).foldl (Udp.ev c N) t.u).crashed with
    | true => intro _; trivial
    | false =>
      simp only [Bool.false_eq_true, if_false]
      have hlag0 : ∀ S', Lag c resp e0 eEnd TT S' t.seen { l with sched := S' } t.u := by
        intro S'
        refine ⟨by rw [r2]; exact Nat.le_refl _, { l with sched := S' }, ⟨r3.env, rfl, r3.mem, r3.pend⟩, ?_⟩
        rw [r2, Nat.sub_self, r4]; rfl
      cases hd : ((t.plan.headD []).foldl (Udp.ev c N) t.u).dispatch N b with
      | ok a u' =>
        intro hG
        have hG := hG _ rfl
        have hcnt := drop_counts hG.cnt
        have hdd := dispatch_dispatched hd
        have hou : u'.outcomes = ((t.plan.headD []).foldl (Udp.ev c N) t.u).outcomes := by
          revert hd
          unfold Udp.dispatch
          rw [hdd.2.2.2]
          simp only
          split <;> intro hd <;> cases hd <;> rfl
        obtain ⟨g1, g2⟩ := (hlag0 l.sched.tail).evs h0 hN (t.plan.headD []) r1 (hou ▸ hG.out) hcr
        generalize hu : (t.plan.headD []).foldl (Udp.ev c N) t.u = u1 at *
        obtain ⟨k1, l1, k2, k3⟩ := g1
        rw [hdd.2.2.2] at k3
        have hsc : l.sched.headD (0, 0) = (u1.outcomes.length - t.seen, 0) := by
          rw [r3.sched, hcnt]; rfl
        simp only [linkT, hsc, k3]
        refine ⟨_, rfl, ⟨g2.dispatch hN hd, by rw [hou], ?_⟩, hdd.2.2.1⟩
        have hfr := Frame.dispatch hd
        refine ⟨by rw [hou]; exact k2.env, ?_, ?_, ?_⟩
        · show l1.sched = _
          rw [k2.sched, r3.sched, hcnt]; rfl
        · have hre : u'.reply = u1.reply := by
            revert hd
            unfold Udp.dispatch
            rw [hdd.2.2.2]
            simp only
            split <;> intro hd <;> cases hd <;> rfl
          have := k2.mem
          unfold MemRel at this ⊢
          simp only [hfr.mid, hfr.heap, hfr.log, hre]
          exact this
        · intro _
          show l1.pending ++ [b] = u'.waiting
          rw [k2.pend hdd.2.2.2]
          revert hd
          unfold Udp.dispatch
          rw [hdd.2.2.2]
          simp only
          by_cases hq : (u1.disp.isSome || u1.inFlight == N) = true
          · rw [if_pos hq]; intro hd; cases hd; simp [Udp.waiting]
          · rw [if_neg hq]; intro hd; cases hd
            simp only [Bool.or_eq_true, Option.isSome_iff_ne_none, ne_eq, beq_iff_eq, not_or, Decidable.not_not] at hq
            have q3 : u1.dispQ = [] := by
              cases hz : u1.dispQ with
              | nil => rfl
              | cons x y => exact absurd (g2.queue (by simp [hz]) hq.1) hq.2
            simp [Udp.waiting, Udp.write, hq.1, q3]
      | exc e u' =>
        intro hG
        have hG := hG _ rfl
        have hcnt := drop_counts hG.cnt
        obtain ⟨hex, rfl⟩ := dispatch_exc hd
        obtain ⟨g1, g2⟩ := (hlag0 l.sched.tail).evs h0 hN (t.plan.headD []) r1 hG.out hcr
        generalize hu : (t.plan.headD []).foldl (Udp.ev c N) t.u = u1 at *
        obtain ⟨k1, l1, k2, k3⟩ := g1
        rw [hex] at k3
        have hsc : l.sched.headD (0, 0) = (u1.outcomes.length - t.seen, 0) := by
          rw [r3.sched, hcnt]; rfl
        simp only [linkT, hsc, k3]
        refine ⟨_, rfl, g2, rfl, k2.env, ?_, k2.mem, k2.pend⟩
        rw [k2.sched, r3.sched, hcnt]; rfl
      | ub => intro _; trivial
      | loops => intro _; trivial
  · intro t l hG hR
    obtain ⟨⟨r1, r2, r3⟩, r4⟩ := hR
    revert hG
    simp only [udpT]
    cases hcr : ((t.plan.headD []).foldl (Udp.ev c N) t.u).crashed with
    | true => intro _; trivial
    | false =>
      simp only [Bool.false_eq_true, if_false]
      have hlag0 : Lag c resp e0 eEnd TT l.sched t.seen l t.u := by
        refine ⟨by rw [r2]; exact Nat.le_refl _, l, ⟨r3.env, rfl, r3.mem, r3.pend⟩, ?_⟩
        rw [r2, Nat.sub_self, r4]; rfl
      cases hfd : ((t.plan.headD []).foldl (Udp.ev c N) t.u).flushDone with
      | false => simp only [Udp.flush, hfd, Bool.false_eq_true, if_false]; intro _; trivial
      | true =>
        simp only [Udp.flush, hfd, if_true]
        cases hex : ((t.plan.headD []).foldl (Udp.ev c N) t.u).exc with
        | none =>
          intro hG
          have hG := hG _ rfl
          obtain ⟨g1, g2⟩ := hlag0.evs h0 hN (t.plan.headD []) r1 hG.out hcr
          generalize hu : (t.plan.headD []).foldl (Udp.ev c N) t.u = u1 at *
          obtain ⟨k1, l1, k2, k3⟩ := g1
          rw [hex] at k3
          have hq := (g2.flush hex).1 hfd
          have hpe : l1.pending = [] := by
            rw [k2.pend hex]
            have hdq : u1.dispQ = [] := by
              cases hz : u1.dispQ with
              | nil => rfl
              | cons x y =>
                have := g2.queue (by simp [hz]) hq.1
                have hf := g2.fl
                rw [hq.1, hq.2, g2.rq hq.2] at hf
                simp at hf; omega
            simp [Udp.waiting, hq.1, hq.2, g2.rq hq.2, hdq]
          have := (process_all (c := c) (resp := resp) _ l).1 l1 k3 hpe
          refine ⟨l1, this, ⟨g2, rfl, k2.env, ?_, k2.mem, k2.pend⟩, hex⟩
          rw [k2.sched, r3.sched]
        | some e =>
          intro hG
          have hG := hG _ rfl
          obtain ⟨g1, g2⟩ := hlag0.evs h0 hN (t.plan.headD []) r1 hG.out hcr
          generalize hu : (t.plan.headD []).foldl (Udp.ev c N) t.u = u1 at *
          obtain ⟨k1, l1, k2, k3⟩ := g1
          rw [hex] at k3
          have := (process_all (c := c) (resp := resp) _ l).2 e l1 k3
          refine ⟨l1, this, g2, rfl, k2.env, ?_, k2.mem, k2.pend⟩
          rw [k2.sched, r3.sched]
  · intro t l hG hR
    obtain ⟨r1, r2, r3⟩ := hR
    have hd : t.u.handler.dirty = false := hG.dirty
    have hd' := hd
    simp [Udp.handler] at hd'
    refine ⟨⟨.handler hd, r2, r3.env, r3.sched, ?_, ?_⟩, rfl⟩
    · refine .mk' (r3.mem.plain ?_) ?_
      · rw [hd'.2]; intro _ _ hx; cases hx
      · show ∀ e ws, t.u.mid ≠ _
        rw [hd'.2]; intro _ _ hx; cases hx
    · intro _
      simp [Udp.handler, Udp.waiting, linkT, udpT]
  · intro t b t1 h hG
    simp only [udpT] at h
    cases hcr : ((t.plan.headD []).foldl (Udp.ev c N) t.u).crashed with
    | true => rw [hcr] at h; cases h
    | false =>
      rw [hcr] at h
      simp only [Bool.false_eq_true, if_false] at h
      cases hd : ((t.plan.headD []).foldl (Udp.ev c N) t.u).dispatch N b with
      | ok a u' =>
        rw [hd] at h
        cases h
        have hou : u'.outcomes = ((t.plan.headD []).foldl (Udp.ev c N) t.u).outcomes := by
          have hdd := dispatch_dispatched hd
          revert hd
          unfold Udp.dispatch
          rw [hdd.2.2.2]
          simp only
          split <;> intro hd <;> cases hd <;> rfl
        exact ⟨(evs_outcomes N _ _).trans (hou ▸ hG.out), (List.prefix_append _ _).trans hG.cnt,
          by rw [← evs_dirty (c := c) N (t.plan.headD []) t.u, ← (Frame.dispatch hd).dirty]; exact hG.dirty⟩
      | exc e u' =>
        rw [hd] at h
        cases h
        obtain ⟨_, rfl⟩ := dispatch_exc hd
        exact ⟨(evs_outcomes N _ _).trans hG.out, (List.prefix_append _ _).trans hG.cnt,
          by rw [← evs_dirty (c := c) N (t.plan.headD []) t.u]; exact hG.dirty⟩
      | ub => rw [hd] at h; cases h
      | loops => rw [hd] at h; cases h
  · intro t t1 h hG
    simp only [udpT] at h
    cases hcr : ((t.plan.headD []).foldl (Udp.ev c N) t.u).crashed with
    | true => rw [hcr] at h; cases h
    | false =>
      rw [hcr] at h
      simp only [Bool.false_eq_true, if_false, Udp.flush] at h
      split at h
      · rename_i hfd
        split at hfd
        · split at hfd <;> cases hfd
          cases h
          exact ⟨(evs_outcomes N _ _).trans hG.out, hG.cnt, by rw [← evs_dirty (c := c) N (t.plan.headD []) t.u]; exact hG.dirty⟩
        · cases hfd
      · rename_i hfd
        split at hfd
        · split at hfd <;> cases hfd
          cases h
          exact ⟨(evs_outcomes N _ _).trans hG.out, hG.cnt, by rw [← evs_dirty (c := c) N (t.plan.headD []) t.u]; exact hG.dirty⟩
        · cases hfd
      · cases h
      · cases h
  · intro t hG
    have hd := hG.dirty
    simp [udpT, Udp.handler] at hd
    exact ⟨hG.out, hG.cnt, hd.1.1.1⟩

theorem udp_init_rel {N : Nat} (plan : List (List Ev)) (CC : List Nat) (hf : Follows resp e0 TT eEnd) :
    SRel 0 0 [] [] (UR c resp e0 eEnd N TT CC) (St.init (⟨.init, plan, 0, []⟩ : UdpT)) (St.init (Link.init e0 (CC.map fun n => (n, 0)))) := by
  refine ⟨rfl, rfl, rfl, rfl, ⟨⟨.init, rfl, ⟨TT, ?_, .nil _, hf⟩, ?_, ?_, ?_⟩, rfl⟩, [], rfl, rfl⟩
  · simp [St.init, Udp.init, Link.init]
  · simp [St.init, Link.init]
  · exact ⟨rfl, rfl⟩
  · intro _; rfl

/-- What the simulation gives at the end. -/
structure Refined (c : Cfg) (N : Nat) (s : St UdpT) (s' : St (Link ρ)) : Prop where
  inv : UInv N s.tr.u
  hist : s'.hist = s.hist
  cur : s'.cur = s.cur
  ctr : s'.ctr = s.ctr
  nObj : s'.nObj = s.nObj
  nPre : s'.nPre = s.nPre
  mem : MemRel c s.tr.u s'.tr
  exc : s.tr.u.exc = none
  pend : s'.tr.pending = s.tr.u.waiting

theorem SRel.refined {N : Nat} {CC : List Nat} {s : St UdpT} {s' : St (Link ρ)} (h : SRel 0 0 [] [] (UR c resp e0 eEnd N TT CC) s s') :
    Refined c N s s' := by
  have hz : Buf.shift 0 0 = id := funext Buf.shift_zero
  refine ⟨h.tr.1.inv, ?_, ?_, h.ctr, h.nObj, h.nPre, h.tr.1.m.mem, h.tr.2, h.tr.1.m.pend h.tr.2⟩
  · obtain ⟨H, e1, e2⟩ := h.hist
    rw [e1, e2, hz, List.map_id]
  · rw [h.cur, hz]; simp

theorem shift0 (rs : List Res) : rs.map (Res.shift 0) = rs := by
  have : Res.shift 0 = id := by
    funext r
    cases r with
    | ok h => cases h <;> simp [Res.shift, Handle.shift_zero]
    | exc e => rfl
  rw [this, List.map_id]

/-- A program run on the UDP client is a run on `linkT`, in every environment that answers the packets as they were answered.
Here in two parts: `ops`, then `ops'`. -/
theorem udp_refines₂ {N : Nat} (h0 : 0 < N) (hN : N < 2 ^ 32) (ops ops' : List Op) (plan : List (List Ev)) (rs rs' : List Res) (s s' : St UdpT)
    (h : runOps c (udpT c N) ops (St.init ⟨.init, plan, 0, []⟩) = some (rs, s)) (h' : runOps c (udpT c N) ops' s = some (rs', s'))
    (hd : s'.tr.u.dirty = false) (hf : Follows resp e0 s'.tr.u.outcomes eEnd) :
    ∃ (sched : List (Nat × Nat)) (l l' : St (Link ρ)),
      runOps c (linkT c resp) ops (St.init (Link.init e0 sched)) = some (rs, l) ∧ runOps c (linkT c resp) ops' l = some (rs', l') ∧
      Refined c N s l ∧ Refined c N s' l' ∧ Follows resp e0 s.tr.u.outcomes l.tr.env ∧ l'.tr.env = eEnd ∧ s.tr.u.dirty = false := by
  have hsim := udp_sim (c := c) (resp := resp) (e0 := e0) (eEnd := eEnd) (TT := s'.tr.u.outcomes) N h0 hN s'.tr.counts
  have hC : Cond (fun _ => True) (UGood s'.tr.u.outcomes s'.tr.counts) s' := ⟨fun _ _ => trivial, List.prefix_refl _, List.prefix_refl _, hd⟩
  have hG := (run_mono hsim ops' h').cond hC
  obtain ⟨_, l, k1, k2⟩ := sim_run hsim ops h hG (udp_init_rel plan _ hf)
  obtain ⟨_, l', k3, k4⟩ := sim_run hsim ops' h' hC k2
  rw [shift0] at k1 k3
  obtain ⟨_, _, m1, _⟩ := k2.tr.1.m.env
  obtain ⟨rest, m2, _, m3⟩ := k4.tr.1.m.env
  refine ⟨_, l, l', k1, k3, k2.refined, k4.refined, m1, ?_, hG.good.dirty⟩
  have h5 := congrArg List.length m2
  simp at h5
  subst h5
  cases m3; rfl

theorem udp_refines {N : Nat} (h0 : 0 < N) (hN : N < 2 ^ 32) (ops : List Op) (plan : List (List Ev)) (rs : List Res) (s : St UdpT)
    (h : runOps c (udpT c N) ops (St.init ⟨.init, plan, 0, []⟩) = some (rs, s)) (hd : s.tr.u.dirty = false)
    (hf : Follows resp e0 s.tr.u.outcomes eEnd) :
    ∃ (sched : List (Nat × Nat)) (s' : St (Link ρ)), runOps c (linkT c resp) ops (St.init (Link.init e0 sched)) = some (rs, s') ∧
      Refined c N s s' ∧ s'.tr.env = eEnd := by
  obtain ⟨sched, l, l', h1, h2, h3, h4, h5, h6, _⟩ := udp_refines₂ h0 hN ops [] plan rs [] s s h rfl hd hf
  cases h2
  exact ⟨sched, l, h1, h3, h6⟩

end

/-- There always is such an environment: the list of the answers. -/
theorem follows_list (l : List (Buf × Option (List W))) : Follows listResp (l.map Prod.snd) l [] := by
  induction l with
  | nil => exact .nil _
  | cons x l ih => exact .cons rfl ih

end
end Verif
