import Verif.Model.Udp
/-! Invariants of the UDP client. -/

set_option autoImplicit false
set_option linter.unusedSimpArgs false

namespace Verif

/-- Invariant of the UDP client, while the exception handler has not run with operations pending. -/
structure UInv (N : Nat) (u : Udp) : Prop where
  disp : u.dispatched = u.finished ++ (u.reply.toList ++ (u.replyQ ++ (u.disp.toList ++ u.dispQ)))
  sent : u.sent = u.finished ++ (u.reply.toList ++ (u.replyQ ++ u.disp.toList))
  fl : u.inFlight = u.reply.toList.length + (u.replyQ.length + u.disp.toList.length)
  lim : u.inFlight ≤ N
  sops : u.sendOps.length ≤ u.disp.toList.length
  sops' : u.exc = none → u.sendOps.length = u.disp.toList.length
  rops : u.recvOps.length + u.mid.toList.length ≤ u.reply.toList.length
  rops' : u.exc = none → u.recvOps.length + u.mid.toList.length = u.reply.toList.length
  queue : u.dispQ ≠ [] → u.disp = none → u.inFlight = N
  rq : u.reply = none → u.replyQ = []
  flush : u.exc = none → (u.flushDone = true ↔ u.disp = none ∧ u.reply = none)
  wake : u.exc ≠ none → u.flushDone = true ∨ u.mid = some .last
  midx : u.exc ≠ none → u.mid = none ∨ u.mid = some .last
  dl : u.exc = none → u.deadline = .inf → (∀ x ∈ u.sendOps, x = true) ∧ ∀ x ∈ u.recvOps, x = true
  mat : u.matched.map (fun x => (x.buf, x.reply)) = u.sent.zip u.rx
  rxl : u.rx.length ≤ u.finished.length + u.reply.toList.length
  rxl' : u.exc = none → (u.mid = none ∨ u.mid = some .failed) → u.rx.length = u.finished.length
  rxl'' : u.exc = none → u.mid ≠ none → u.mid ≠ some .failed → u.rx.length = u.finished.length + 1

theorem UInv.init {N : Nat} : UInv N .init := by
  constructor <;> simp [Udp.init]

theorem zip_grow {α β : Type} (a b : List α) (x : List β) (h : x.length ≤ a.length) : (a ++ b).zip x = a.zip x := by
  induction a generalizing x with
  | nil => cases x <;> simp_all
  | cons y a ih =>
    cases x with
    | nil => simp
    | cons z x => simp at h; simp [ih x h]

theorem UInv.handler {N : Nat} {u : Udp} (h : u.handler.dirty = false) : UInv N u.handler := by
  simp [Udp.handler] at h
  obtain ⟨⟨⟨h0, h1⟩, h2⟩, h3⟩ := h
  constructor <;> simp [Udp.handler, Udp.close, h0, h1, h2, h3]

theorem UInv.timeout {N : Nat} {u : Udp} (h : UInv N u) : UInv N u.timeout := by
  unfold Udp.timeout
  obtain ⟨a1, a2, a3, a4, a5, a6, a7, a8, a9, a10, a11, a12, a13, a14, a15, a16, a17, a18⟩ := h
  cases hd : u.deadline with
  | armed =>
    constructor <;> simp only [Udp.close, List.length_map] <;> try assumption
    simp
  | inf => exact ⟨a1, a2, a3, a4, a5, a6, a7, a8, a9, a10, a11, a12, a13, a14, a15, a16, a17, a18⟩

theorem UInv.dispatch {N : Nat} {u u' : Udp} {b : Buf} (hN : N < 2 ^ 32) (h : UInv N u)
    (hd : u.dispatch N b = .ok () u') : UInv N u' := by
  obtain ⟨a1, a2, a3, a4, a5, a6, a7, a8, a9, a10, a11, a12, a13, a14, a15, a16, a17, a18⟩ := h
  unfold Udp.dispatch at hd
  cases he : u.exc with
  | some e => rw [he] at hd; cases hd
  | none =>
    simp only [he, forall_const] at *
    by_cases hq : (u.disp.isSome || u.inFlight == N) = true
    · rw [if_pos hq] at hd
      cases hd
      constructor <;> simp only [forall_const, he] <;> try assumption
      · rw [a1]; simp
      · intro _ hn
        simp [hn] at hq
        exact hq
    · rw [if_neg hq] at hd
      simp only [Udp.write] at hd
      cases hd
      simp only [Bool.or_eq_true, Option.isSome_iff_ne_none, ne_eq, beq_iff_eq, not_or, Decidable.not_not] at hq
      obtain ⟨q1, q2⟩ := hq
      have q3 : u.dispQ = [] := by
        cases hz : u.dispQ with
        | nil => rfl
        | cons x y => exact absurd (a9 (by simp [hz]) q1) q2
      simp only [q1, q3, Option.toList_none, List.append_nil, List.length_nil, Nat.add_zero] at a1 a2 a3 a5 a6
      constructor <;> simp only [Option.toList_some, List.length_append, List.length_cons, List.length_nil, forall_const, he] <;> try assumption
      · rw [a1, q3]; simp
      · rw [a2]; simp
      · rw [Nat.mod_eq_of_lt] <;> omega
      · rw [Nat.mod_eq_of_lt] <;> omega
      · omega
      · omega
      · simp
      · simp
      · simp
      · simp
      · rw [a15, zip_grow]
        rw [a2]; simp; omega

/-- Sending the next packet: `m` is the state with `disp` cleared. -/
theorem UInv.next {N : Nat} {u : Udp} (hN : N < 2 ^ 32) (he : u.exc = none)
    (a1 : u.dispatched = u.finished ++ (u.reply.toList ++ (u.replyQ ++ u.dispQ)))
    (a2 : u.sent = u.finished ++ (u.reply.toList ++ u.replyQ))
    (a3 : u.inFlight = u.reply.toList.length + u.replyQ.length)
    (a4 : u.inFlight ≤ N)
    (a6 : u.sendOps = [])
    (a8 : u.recvOps.length + u.mid.toList.length = u.reply.toList.length)
    (a10 : u.reply = none → u.replyQ = [])
    (a11 : u.dispQ = [] ∨ u.inFlight = N → (u.flushDone = true ↔ u.reply = none))
    (a14 : u.deadline = .inf → ∀ x ∈ u.recvOps, x = true)
    (a15 : u.matched.map (fun x => (x.buf, x.reply)) = u.sent.zip u.rx)
    (a16 : u.rx.length ≤ u.finished.length + u.reply.toList.length)
    (a17 : (u.mid = none ∨ u.mid = some .failed) → u.rx.length = u.finished.length)
    (a18 : u.mid ≠ none → u.mid ≠ some .failed → u.rx.length = u.finished.length + 1) : UInv N (u.next N) := by
  unfold Udp.next
  cases hq : u.dispQ with
  | nil =>
    simp only [hq, List.append_nil, true_or, forall_const] at a1 a11
    constructor <;> simp only [he, hq, a6, Option.toList_none, List.length_nil, Nat.add_zero, List.append_nil, forall_const, true_and] <;>
      first | assumption | simp_all
  | cons b q =>
    simp only
    by_cases hl : u.inFlight = N
    · simp only [hl, ne_eq, not_true, if_false]
      simp only [hl, or_true, forall_const] at a11
      constructor <;> simp only [he, hq, a6, Option.toList_none, List.length_nil, Nat.add_zero, List.append_nil, List.nil_append, forall_const, true_and] <;>
        first | assumption | simp_all
    · simp only [ne_eq, hl, not_false_iff, if_true, Udp.write]
      constructor <;> simp only [he, hq, a6, Option.toList_some, List.length_cons, List.length_nil, List.nil_append, List.mem_singleton, forall_const, true_and] <;> try assumption
      · rw [a1, hq]; simp
      · rw [a2]; simp
      · rw [Nat.mod_eq_of_lt] <;> omega
      · rw [Nat.mod_eq_of_lt] <;> omega
      · omega
      · omega
      · simp
      · simp
      · simp
      · simp
      · simp
      · rw [a15, zip_grow]
        rw [a2]; simp; omega

theorem UInv.sendDone {N : Nat} {u : Udp} {ok : Bool} (hN : N < 2 ^ 32) (h : UInv N u) (hm : u.mid = none) :
    UInv N (u.sendDone N ok) ∧ (u.sendDone N ok).crashed = u.crashed := by
  have h' := h
  obtain ⟨a1, a2, a3, a4, a5, a6, a7, a8, a9, a10, a11, a12, a13, a14, a15, a16, a17, a18⟩ := h
  unfold Udp.sendDone
  cases hs : u.sendOps with
  | nil => exact ⟨h', rfl⟩
  | cons x ops =>
    simp only [hs, List.length_cons] at a5 a6
    simp only
    cases he : u.exc with
    | some e =>
      simp only [Option.isSome_some, if_true, and_true]
      constructor <;> simp only [he] <;> first | assumption | simp_all
      omega
    | none =>
      simp only [Option.isSome_none, Bool.false_eq_true, if_false]
      simp only [he, forall_const] at a6 a8 a11 a14 a17 a18
      split
      · refine ⟨?_, rfl⟩
        constructor <;> simp only [Udp.fail] <;> first | assumption | simp_all
        omega
      · rename_i hd
        have hd' : u.deadline = .armed := by cases h : u.deadline <;> simp_all
        cases hb : u.disp with
        | none => rw [hb] at a6; simp at a6
        | some b =>
          simp only
          rw [hb] at a6
          simp only [Option.toList_some, List.length_cons, List.length_nil] at a6
          have h0 : ops = [] := List.length_eq_zero_iff.1 (by omega)
          simp only [hb, Option.toList_some, List.length_cons, List.length_nil] at a1 a2 a3
          simp only [hm, true_or, forall_const, Option.toList_none, List.length_nil, Nat.add_zero] at a8 a17
          split
          · refine ⟨?_, rfl⟩
            constructor <;> simp only [Udp.fail, Udp.close, List.length_map, hb, hm, h0] <;> first | assumption | simp_all
          · cases hr : u.reply with
            | some r =>
              rw [hr] at a1 a2 a3 a8
              simp only [Option.toList_some, List.length_cons, List.length_nil] at a1 a2 a3 a8
              have hfd : ¬ u.flushDone = true := by rw [a11]; simp [hb]
              constructor
              · apply UInv.next hN <;> simp only [hr, hm, h0, hd', he, Option.toList_some, Option.toList_none, List.length_cons, List.length_nil, List.length_append] <;>
                  first | assumption | (simp_all; done) | skip
              · simp only [Udp.next]
                split
                · split <;> rfl
                · rfl
            | none =>
              have hrq := a10 hr
              rw [hr] at a1 a2 a3 a8
              simp only [hrq, Option.toList_none, List.length_cons, List.length_nil] at a1 a2 a3 a8
              have hfd : ¬ u.flushDone = true := by rw [a11]; simp [hb]
              constructor
              · apply UInv.next hN <;> simp only [Udp.read, hr, hm, h0, hrq, he, Option.toList_some, Option.toList_none, List.length_cons, List.length_nil, List.length_append] <;>
                  first | assumption | (simp_all; done) | skip
              · simp only [Udp.next]
                split
                · split <;> rfl
                · rfl

/-- No reply to this packet leads validation into undefined behaviour. -/
def NoUB (c : Cfg) (b : Buf) : Prop := ∀ h ws, (receiveReply c h b ws).1 ≠ .ub

theorem UInv.recvBegin {N : Nat} {c : Cfg} {u : Udp} {r : Option (List W)} (h : UInv N u) (hm : u.mid = none) (hc : u.crashed = false) :
    ((u.recvBegin c r).crashed = false → UInv N (u.recvBegin c r)) ∧
      ((∀ b, u.reply = some b → NoUB c b) → (u.recvBegin c r).crashed = false) := by
  have h' := h
  obtain ⟨a1, a2, a3, a4, a5, a6, a7, a8, a9, a10, a11, a12, a13, a14, a15, a16, a17, a18⟩ := h
  unfold Udp.recvBegin
  cases hs : u.recvOps with
  | nil => exact ⟨fun _ => h', fun _ => hc⟩
  | cons x ops =>
    simp only [hs, List.length_cons] at a7 a8
    simp only
    cases he : u.exc with
    | some e =>
      simp only [Option.isSome_some, if_true]
      refine ⟨fun _ => ?_, fun _ => hc⟩
      constructor <;> simp only [he] <;> first | assumption | simp_all
      omega
    | none =>
      simp only [Option.isSome_none, Bool.false_eq_true, if_false]
      simp only [he, forall_const] at a6 a8 a11 a14 a17 a18
      split
      · refine ⟨fun _ => ?_, fun _ => hc⟩
        constructor <;> simp only [Udp.fail] <;> first | assumption | simp_all
        omega
      · rename_i hd
        cases hb : u.reply with
        | none => rw [hb] at a8; simp at a8
        | some b =>
          simp only
          rw [hb] at a8
          simp only [hm, true_or, forall_const, Option.toList_some, Option.toList_none, List.length_cons, List.length_nil, Nat.add_zero] at a8 a17
          have h0 : ops = [] := List.length_eq_zero_iff.1 (by omega)
          cases r with
          | none =>
            refine ⟨fun _ => ?_, fun _ => hc⟩
            constructor <;> simp only [Udp.close, List.length_map, hb, hm, h0] <;> first | assumption | simp_all
          | some ws =>
            simp only
            have hz : u.matched.map (fun x => (x.buf, x.reply)) ++ [(b, ws)] = u.sent.zip (u.rx ++ [ws]) := by
              rw [a15, a2, hb]
              have e1 : u.finished ++ ((some b).toList ++ (u.replyQ ++ u.disp.toList)) = (u.finished ++ [b]) ++ (u.replyQ ++ u.disp.toList) := by simp
              have e2 : u.rx.length ≤ (u.finished ++ [b]).length := by simp only [List.length_append, List.length_cons, List.length_nil]; omega
              have e3 : (u.rx ++ [ws]).length ≤ (u.finished ++ [b]).length := by simp only [List.length_append, List.length_cons, List.length_nil]; omega
              rw [e1, zip_grow _ _ _ e2, zip_grow _ _ _ e3, zip_grow u.finished _ u.rx (by omega), List.zip_append a17.symm]
              simp
            cases hre : receiveReply c u.heap b ws with
            | mk o hp =>
              cases o with
              | ok =>
                refine ⟨fun _ => ?_, fun _ => hc⟩
                constructor <;> simp only [hb, h0] <;> first | assumption | simp_all
              | err e =>
                refine ⟨fun _ => ?_, fun _ => hc⟩
                constructor <;> simp only [hb, h0] <;> first | assumption | simp_all
              | ub =>
                refine ⟨fun hx => absurd hx (by simp), fun hx => ?_⟩
                exact absurd (by rw [hre]) (hx b rfl u.heap ws)

theorem next_crashed (N : Nat) (u : Udp) : (u.next N).crashed = u.crashed := by
  unfold Udp.next
  split
  · split <;> rfl
  · rfl

theorem next_reply (N : Nat) (u : Udp) : (u.next N).reply = u.reply := by
  unfold Udp.next
  split
  · split <;> rfl
  · rfl

/-- The part of `Udp.advance` before the next packet is sent. -/
def Udp.pop (u : Udp) : Udp :=
  let fin := u.finished ++ u.reply.toList
  let u := match u.replyQ with
    | b :: q => { u with reply := some b, replyQ := q }.read
    | [] => { u with reply := none }
  { u with inFlight := (u.inFlight + (2 ^ 32 - 1)) % 2 ^ 32, finished := fin }

theorem advance_eq (N : Nat) (u : Udp) : u.advance N =
    let u := if u.pop.disp.isNone then u.pop.next N else u.pop
    if u.disp.isNone && u.reply.isNone then { u with deadline := .armed, flushDone := true } else u := rfl

theorem UInv.advance {N : Nat} {u : Udp} (h0 : 0 < N) (hN : N < 2 ^ 32) (h : UInv N u) (hm : u.mid = some .last) (he : u.exc = none) :
    UInv N ({ u with mid := none }.advance N) ∧ ({ u with mid := none }.advance N).crashed = u.crashed := by
  obtain ⟨a1, a2, a3, a4, a5, a6, a7, a8, a9, a10, a11, a12, a13, a14, a15, a16, a17, a18⟩ := h
  simp only [he, forall_const, hm] at a6 a8 a11 a14 a17 a18
  have hro : u.recvOps = [] := by
    cases hr : u.recvOps with
    | nil => rfl
    | cons x y => rw [hr] at a8; cases h : u.reply <;> rw [h] at a8 <;> simp at a8
  obtain ⟨r, hr⟩ : ∃ r, u.reply = some r := by
    cases h : u.reply with
    | none => rw [h] at a8; simp at a8
    | some r => exact ⟨r, rfl⟩
  have hfd : u.flushDone = false := by
    cases h : u.flushDone with
    | false => rfl
    | true => rw [h] at a11; simp [hr] at a11
  have a18' : u.rx.length = u.finished.length + 1 := a18 (by simp) (by simp)
  simp only [hr, Option.toList_some, List.length_cons, List.length_nil] at a1 a2 a3
  have hfl : (u.inFlight + (2 ^ 32 - 1)) % 2 ^ 32 = u.replyQ.length + u.disp.toList.length := by
    rw [a3]
    have : 0 + 1 + (u.replyQ.length + u.disp.toList.length) + (2 ^ 32 - 1) = u.replyQ.length + u.disp.toList.length + 2 ^ 32 := by omega
    rw [this, Nat.add_mod_right, Nat.mod_eq_of_lt (by omega)]
  -- the state after `pop`
  obtain ⟨p, hp⟩ : ∃ p, p = ({ u with mid := none } : Udp).pop := ⟨_, rfl⟩
  have b : p.dispatched = p.finished ++ (p.reply.toList ++ (p.replyQ ++ (p.disp.toList ++ p.dispQ))) ∧
      p.sent = p.finished ++ (p.reply.toList ++ (p.replyQ ++ p.disp.toList)) ∧
      p.inFlight = p.reply.toList.length + (p.replyQ.length + p.disp.toList.length) ∧ p.inFlight < N ∧
      p.sendOps = u.sendOps ∧ p.disp = u.disp ∧ p.dispQ = u.dispQ ∧ p.exc = none ∧ p.mid = none ∧ p.flushDone = false ∧
      p.recvOps.length = p.reply.toList.length ∧ (p.reply = none → p.replyQ = []) ∧
      (p.deadline = .inf → (∀ x ∈ p.sendOps, x = true) ∧ ∀ x ∈ p.recvOps, x = true) ∧ p.matched.map (fun x => (x.buf, x.reply)) = p.sent.zip p.rx ∧
      p.rx.length = p.finished.length ∧ p.crashed = u.crashed := by
    rw [hp]
    unfold Udp.pop
    cases hq : u.replyQ with
    | cons b q =>
      simp only [Udp.read, hfl, hr, hro, he, hfd, hq]
      rw [hq] at a1 a2
      simp only [a15, a18', true_and, and_true, Option.toList_some, Option.toList_none, List.length_cons, List.length_nil, List.length_append]
      refine ⟨by rw [a1]; simp, by rw [a2]; simp, by omega, ?_, by simp, by simp⟩
      rw [hq, List.length_cons] at a3
      omega
    | nil =>
      simp only [hfl, hr, hro, he, hfd, hq]
      rw [hq] at a1 a2 a3
      simp only [a15, a18', true_and, and_true, Option.toList_some, Option.toList_none, List.length_cons, List.length_nil, List.length_append]
      refine ⟨by rw [a1]; simp, by rw [a2]; simp, by omega, ?_, by simp, by simpa [hro] using a14⟩
      rw [List.length_nil] at a3
      omega
  rw [advance_eq, ← hp]
  obtain ⟨b1, b2, b3, b4, b5, b6, b7, b8, b9, b10, b11, b12, b13, b14, b15, b16⟩ := b
  cases hd : p.disp with
  | some d =>
    simp only [Option.isNone_some, Bool.false_eq_true, if_false, hd, Bool.false_and]
    refine ⟨?_, b16⟩
    exact ⟨b1, b2, b3, by omega, by rw [b5, b6]; omega, fun _ => by rw [b5, b6, a6], by rw [b9, b11]; simp, fun _ => by rw [b9, b11]; simp,
      fun _ h => (by rw [hd] at h; cases h), b12, fun _ => by simp [b10, hd], fun h => absurd b8 h, fun h => absurd b8 h, fun _ => b13, b14,
      by omega, fun _ _ => b15, fun _ h => absurd b9 h⟩
  | none =>
    simp only [Option.isNone_none, if_true]
    rw [hd] at b1 b2 b3
    have hs : p.sendOps = [] := by
      rw [b5]; rw [← b6, hd] at a6; exact List.length_eq_zero_iff.1 a6
    simp only [Option.toList_none, List.append_nil, List.nil_append, List.length_nil, Nat.add_zero] at b1 b2 b3
    cases hr' : p.reply with
    | some r' =>
      have : (p.next N).reply = some r' := by rw [next_reply, hr']
      simp only [this, Option.isNone_some, Bool.and_false, Bool.false_eq_true, if_false]
      refine ⟨?_, by rw [next_crashed, b16]⟩
      exact .next hN b8 b1 b2 b3 (by omega) hs (by rw [b9, b11]; simp) b12 (fun _ => by simp [b10, hr']) (fun h => (b13 h).2) b14 (by omega)
        (fun _ => b15) (fun h => absurd b9 h)
    | none =>
      have hrq := b12 hr'
      have hrn : (p.next N).reply = none := by rw [next_reply, hr']
      cases hq : p.dispQ with
      | nil =>
        have hn : p.next N = { p with disp := none } := by unfold Udp.next; rw [hq]
        rw [hn]
        simp only [Option.isNone_none, hr', Bool.and_true, if_true]
        refine ⟨?_, b16⟩
        rw [hr', hrq] at b1 b2 b3
        rw [hr'] at b11
        exact ⟨by simpa [hr', hrq, hq] using b1, by simpa [hr', hrq, hq] using b2, by simpa [hr', hrq] using b3, Nat.le_of_lt b4, by simp [hs],
          fun _ => by simp [hs], by simp [b9, b11, hr'], fun _ => by simp [b9, b11, hr'],
          fun h => absurd hq h, fun _ => hrq, fun _ => by simp [hr'], fun h => absurd b8 h, fun h => absurd b8 h, fun _ h => (by cases h), b14,
          by simp [b15], fun _ _ => b15, fun _ h => absurd b9 h⟩
      | cons x q =>
        have hl : p.inFlight ≠ N := by omega
        have hn : (p.next N).disp = some x := by
          unfold Udp.next; rw [hq]; simp only [ne_eq, hl, not_false_iff, if_true, Udp.write]
        simp only [hn, Option.isNone_some, Bool.false_and, Bool.false_eq_true, if_false]
        refine ⟨?_, by rw [next_crashed, b16]⟩
        exact .next hN b8 b1 b2 b3 (by omega) hs (by rw [b9, b11]; simp) b12 (fun h => by simp [hq, hl] at h) (fun h => (b13 h).2) b14 (by omega)
          (fun _ => b15) (fun h => absurd b9 h)

theorem UInv.recvEnd {N : Nat} {u : Udp} (h0 : 0 < N) (hN : N < 2 ^ 32) (h : UInv N u) :
    UInv N (u.recvEnd N) ∧ (u.recvEnd N).crashed = u.crashed := by
  have h' := h
  obtain ⟨a1, a2, a3, a4, a5, a6, a7, a8, a9, a10, a11, a12, a13, a14, a15, a16, a17, a18⟩ := h
  unfold Udp.recvEnd
  cases hm : u.mid with
  | none => exact ⟨h', rfl⟩
  | some m =>
    cases m with
    | failed =>
      refine ⟨?_, rfl⟩
      constructor <;> simp only [Udp.fail] <;> first | assumption | (simp_all; done) | skip
      simp; omega
    | invalid e ws =>
      refine ⟨?_, rfl⟩
      constructor <;> simp only [Udp.fail] <;> first | assumption | (simp_all; done) | skip
    | last =>
      simp only
      cases he : u.exc with
      | none => simpa [he] using h'.advance h0 hN hm he
      | some e =>
        refine ⟨?_, rfl⟩
        constructor <;> simp only [he, Option.isSome_some, if_true] <;> first | assumption | (simp_all; done) | skip
        simp; omega

theorem UInv.ev {N : Nat} {c : Cfg} {u : Udp} {e : Ev} (h0 : 0 < N) (hN : N < 2 ^ 32) (h : UInv N u) (hc : u.crashed = false) :
    ((u.ev c N e).crashed = false → UInv N (u.ev c N e)) ∧ ((∀ b, u.reply = some b → NoUB c b) → (u.ev c N e).crashed = false) := by
  unfold Udp.ev
  simp only [hc, Bool.false_eq_true, if_false]
  cases hm : u.mid with
  | none =>
    cases e with
    | sendDone ok => obtain ⟨p, q⟩ := h.sendDone (ok := ok) hN hm; exact ⟨fun _ => p, fun _ => q.trans hc⟩
    | recvBegin r => exact h.recvBegin hm hc
    | timeout =>
      refine ⟨fun _ => h.timeout, fun _ => ?_⟩
      unfold Udp.timeout
      cases u.deadline <;> exact hc
    | recvEnd => exact ⟨fun _ => h, fun _ => hc⟩
  | some m =>
    cases e with
    | recvEnd => obtain ⟨p, q⟩ := h.recvEnd h0 hN; exact ⟨fun _ => p, fun _ => q.trans hc⟩
    | sendDone ok => exact ⟨fun _ => h, fun _ => hc⟩
    | recvBegin r => exact ⟨fun _ => h, fun _ => hc⟩
    | timeout => exact ⟨fun _ => h, fun _ => hc⟩

/-! ### What steps leave alone -/

/-- Same contents of memory, results, and place in `read_callback`. -/
structure Frame (u v : Udp) : Prop where
  matched : v.matched = u.matched
  finished : v.finished = u.finished
  mid : v.mid = u.mid
  heap : v.heap = u.heap
  log : v.log = u.log
  dirty : v.dirty = u.dirty
  rx : v.rx = u.rx

theorem Frame.rfl {u : Udp} : Frame u u := ⟨.refl _, .refl _, .refl _, .refl _, .refl _, .refl _, .refl _⟩

theorem Frame.next (N : Nat) (u : Udp) : Frame u (u.next N) := by
  unfold Udp.next
  split
  · split <;> exact ⟨.refl _, .refl _, .refl _, .refl _, .refl _, .refl _, .refl _⟩
  · exact ⟨.refl _, .refl _, .refl _, .refl _, .refl _, .refl _, .refl _⟩

theorem Frame.trans {u v w : Udp} (h : Frame u v) (h' : Frame v w) : Frame u w :=
  ⟨h'.matched.trans h.matched, h'.finished.trans h.finished, h'.mid.trans h.mid, h'.heap.trans h.heap, h'.log.trans h.log,
    h'.dirty.trans h.dirty, h'.rx.trans h.rx⟩

theorem Frame.sendDone (N : Nat) (ok : Bool) (u : Udp) : Frame u (u.sendDone N ok) := by
  unfold Udp.sendDone
  cases u.sendOps with
  | nil => exact .rfl
  | cons x ops =>
    simp only
    split
    · exact ⟨.refl _, .refl _, .refl _, .refl _, .refl _, .refl _, .refl _⟩
    · split
      · exact ⟨.refl _, .refl _, .refl _, .refl _, .refl _, .refl _, .refl _⟩
      · cases u.disp with
        | none => exact ⟨.refl _, .refl _, .refl _, .refl _, .refl _, .refl _, .refl _⟩
        | some b =>
          simp only
          split
          · exact ⟨.refl _, .refl _, .refl _, .refl _, .refl _, .refl _, .refl _⟩
          · refine Frame.trans ?_ (Frame.next N _)
            cases u.reply <;> exact ⟨.refl _, .refl _, .refl _, .refl _, .refl _, .refl _, .refl _⟩

theorem Frame.timeout (u : Udp) : Frame u u.timeout := by
  unfold Udp.timeout
  cases u.deadline <;> exact ⟨.refl _, .refl _, .refl _, .refl _, .refl _, .refl _, .refl _⟩

theorem Frame.dispatch {N : Nat} {b : Buf} {u u' : Udp} (h : u.dispatch N b = .ok () u') : Frame u u' := by
  unfold Udp.dispatch at h
  cases he : u.exc with
  | some e => rw [he] at h; cases h
  | none =>
    rw [he] at h
    simp only at h
    split at h <;> cases h <;> exact ⟨.refl _, .refl _, .refl _, .refl _, .refl _, .refl _, .refl _⟩

theorem Frame.pop (N : Nat) (u : Udp) : (u.advance N).matched = u.matched ∧ (u.advance N).finished = u.finished ++ u.reply.toList ∧
    (u.advance N).mid = u.mid ∧ (u.advance N).heap = u.heap ∧ (u.advance N).log = u.log ∧ (u.advance N).dirty = u.dirty ∧
    (u.advance N).exc = u.exc ∧ (u.advance N).outcomes = u.outcomes := by
  have hp : Frame { u with finished := u.finished ++ u.reply.toList } u.pop ∧ u.pop.exc = u.exc ∧ u.pop.outcomes = u.outcomes := by
    unfold Udp.pop
    cases u.replyQ <;> exact ⟨⟨.refl _, .refl _, .refl _, .refl _, .refl _, .refl _, .refl _⟩, .refl _, .refl _⟩
  have hn : ∀ v : Udp, (v.next N).exc = v.exc ∧ (v.next N).outcomes = v.outcomes := by
    intro v
    unfold Udp.next
    split
    · split <;> exact ⟨.refl _, .refl _⟩
    · exact ⟨.refl _, .refl _⟩
  have key : ∀ v : Udp, Frame { u with finished := u.finished ++ u.reply.toList } v → v.exc = u.exc → v.outcomes = u.outcomes →
      let w := if v.disp.isNone && v.reply.isNone then { v with deadline := .armed, flushDone := true } else v
      w.matched = u.matched ∧ w.finished = u.finished ++ u.reply.toList ∧
      w.mid = u.mid ∧ w.heap = u.heap ∧ w.log = u.log ∧ w.dirty = u.dirty ∧ w.exc = u.exc ∧ w.outcomes = u.outcomes := by
    intro v hv he ho
    dsimp only
    split <;> exact ⟨hv.matched, hv.finished, hv.mid, hv.heap, hv.log, hv.dirty, he, ho⟩
  rw [advance_eq]
  dsimp only
  split
  · exact key _ (hp.1.trans (Frame.next N _)) ((hn _).1.trans hp.2.1) ((hn _).2.trans hp.2.2)
  · exact key _ hp.1 hp.2.1 hp.2.2

theorem sendDone_exc (N : Nat) (ok : Bool) (u : Udp) : (u.sendDone N ok).exc = u.exc ∧ (u.sendDone N ok).outcomes = u.outcomes ∨
    u.exc = none ∧ (u.sendDone N ok).exc = some (.transport 0) ∧ (u.sendDone N ok).outcomes = u.outcomes ++ u.lost ∧ u.sendOps ≠ [] := by
  unfold Udp.sendDone
  cases u.sendOps with
  | nil => exact .inl ⟨rfl, rfl⟩
  | cons x ops =>
    simp only
    cases he : u.exc with
    | some e => simp [he]
    | none =>
      simp only [Option.isSome_none, Bool.false_eq_true, if_false]
      split
      · exact .inr ⟨trivial, rfl, rfl, by simp⟩
      · cases hdd : u.disp with
        | none => exact .inl ⟨rfl, rfl⟩
        | some b =>
          simp only
          split
          · exact .inr ⟨trivial, rfl, by simp [Udp.lost, Udp.waiting, hdd, Udp.close, Udp.fail], by simp⟩
          · left
            cases u.reply <;> (unfold Udp.next Udp.read; dsimp only; split <;> first | exact ⟨rfl, rfl⟩ | (split <;> exact ⟨rfl, rfl⟩))

/-! ### Finished packets were accepted -/

structure UOk (u : Udp) : Prop where
  fin : ∀ x ∈ u.matched.take u.finished.length, x.out = .ok
  last : u.exc = none → u.mid = some .last → ∀ x ∈ u.matched, x.out = .ok
  len : u.finished.length ≤ u.matched.length

theorem Frame.ok {u v : Udp} (f : Frame u v) (he : v.exc = none → u.exc = none) (h : UOk u) : UOk v :=
  ⟨by rw [f.matched, f.finished]; exact h.fin, fun a b => by rw [f.matched]; exact h.last (he a) (f.mid ▸ b), by rw [f.matched, f.finished]; exact h.len⟩

theorem UInv.matched_length {N : Nat} {u : Udp} (h : UInv N u) : u.matched.length = u.rx.length := by
  have h1 := congrArg List.length h.mat
  rw [List.length_map, List.length_zip, h.sent] at h1
  have := h.rxl
  simp only [List.length_append] at h1
  omega

theorem UOk.ev {N : Nat} {c : Cfg} {u : Udp} {e : Ev} (hi : UInv N u) (h : UOk u) : UOk (u.ev c N e) := by
  unfold Udp.ev
  split
  · exact h
  · cases hm : u.mid with
    | none =>
      cases e with
      | sendDone ok =>
        refine (Frame.sendDone N ok u).ok ?_ h
        rcases sendDone_exc N ok u with ⟨a, _⟩ | ⟨_, a, _⟩ <;> rw [a]
        · exact id
        · intro h; cases h
      | timeout =>
        refine (Frame.timeout u).ok ?_ h
        unfold Udp.timeout
        cases u.deadline <;> exact id
      | recvEnd => exact h
      | recvBegin r =>
        simp only [Udp.recvBegin]
        cases hr : u.recvOps with
        | nil => exact h
        | cons x ops =>
          simp only
          split
          · exact ⟨h.fin, h.last, h.len⟩
          · split
            · exact ⟨h.fin, fun hx => (by cases hx), h.len⟩
            · rename_i he _
              have he' : u.exc = none := by cases hx : u.exc <;> simp_all
              cases hb : u.reply with
              | none => exact ⟨h.fin, h.last, h.len⟩
              | some b =>
                cases r with
                | none => exact ⟨h.fin, fun _ hx => (by cases hx), h.len⟩
                | some ws =>
                  simp only
                  have hl : u.matched.length = u.finished.length := by
                    rw [hi.matched_length, hi.rxl' he' (.inl hm)]
                  have hall : ∀ x ∈ u.matched, x.out = .ok := by
                    have := h.fin; rwa [List.take_of_length_le (by omega)] at this
                  have ht : ∀ y, (u.matched ++ [y]).take u.finished.length = u.matched := by
                    intro y; rw [← hl, List.take_left]
                  cases hre : receiveReply c u.heap b ws with
                  | mk o hp =>
                    cases o with
                    | ok =>
                      refine ⟨by simp only [ht]; exact hall, fun _ _ => ?_, by simp [hl]⟩
                      intro y hy
                      rcases List.mem_append.1 hy with hy | hy
                      · exact hall y hy
                      · rw [List.mem_singleton.1 hy]
                    | err e => exact ⟨by simp only [ht]; exact hall, fun _ hx => (by cases hx), by simp [hl]⟩
                    | ub => exact ⟨h.fin, h.last, h.len⟩
    | some m =>
      cases e with
      | sendDone ok => exact h
      | timeout => exact h
      | recvBegin r => exact h
      | recvEnd =>
        simp only [Udp.recvEnd, hm]
        cases m with
        | failed => exact ⟨h.fin, fun hx => (by cases hx), h.len⟩
        | invalid e ws => exact ⟨h.fin, fun hx => (by cases hx), h.len⟩
        | last =>
          simp only
          split
          · exact ⟨h.fin, fun _ hx => (by cases hx), h.len⟩
          · rename_i he
            have he' : u.exc = none := by cases hx : u.exc <;> simp_all
            obtain ⟨q1, q2, q3, _⟩ := Frame.pop N { u with mid := none }
            refine ⟨?_, fun _ hx => (by rw [q3] at hx; cases hx), ?_⟩
            rotate_left
            · rw [q1, q2, hi.matched_length, hi.rxl'' he' (by simp [hm]) (by simp [hm])]
              cases u.reply <;> simp
            rw [q1]
            intro x hx
            exact h.last he' hm x (List.mem_of_mem_take hx)

/-! ### All schedules -/

theorem sched_snoc (c : Cfg) (N : Nat) (as : List Act) (a : Act) :
    Udp.sched c N (as ++ [a]) = (Udp.sched c N as).act c N a := by
  simp [Udp.sched, List.foldl_append]

theorem ev_dirty (c : Cfg) (N : Nat) (u : Udp) (e : Ev) : (u.ev c N e).dirty = u.dirty := by
  unfold Udp.ev
  split
  · rfl
  · cases hm : u.mid with
    | none =>
      cases e with
      | sendDone ok => exact (Frame.sendDone N ok u).dirty
      | timeout => exact (Frame.timeout u).dirty
      | recvEnd => rfl
      | recvBegin r =>
        simp only [Udp.recvBegin]
        repeat' split
        all_goals rfl
    | some m =>
      cases e with
      | recvEnd =>
        simp only [Udp.recvEnd, hm]
        cases m with
        | failed => rfl
        | invalid e ws => rfl
        | last =>
          simp only
          split
          · rfl
          · exact (Frame.pop N _).2.2.2.2.2.1
      | sendDone ok => rfl
      | timeout => rfl
      | recvBegin r => rfl

theorem act_dirty {c : Cfg} {N : Nat} {u : Udp} {a : Act} (h : (u.act c N a).dirty = false) : u.dirty = false := by
  cases a with
  | dispatch b =>
    simp only [Udp.act] at h
    split at h
    · exact h
    · cases hd : u.dispatch N b with
      | ok x u' => rw [hd] at h; exact (Frame.dispatch hd).dirty ▸ h
      | exc e u' => rw [hd] at h; exact h
      | ub => rw [hd] at h; exact h
      | loops => rw [hd] at h; exact h
  | handler =>
    simp only [Udp.act] at h
    split at h
    · exact h
    · simp [Udp.handler] at h; exact h.1.1.1
  | ev e => exact (ev_dirty c N u e) ▸ h

/-- Nothing is dispatched by callbacks. -/
theorem ev_dispatched (c : Cfg) (N : Nat) (u : Udp) (e : Ev) : (u.ev c N e).dispatched = u.dispatched := by
  have hn : ∀ v : Udp, (v.next N).dispatched = v.dispatched := by
    intro v
    unfold Udp.next
    split
    · split <;> rfl
    · rfl
  unfold Udp.ev
  split
  · rfl
  · cases hm : u.mid with
    | none =>
      cases e with
      | sendDone ok =>
        simp only [Udp.sendDone]
        split
        · rfl
        · split
          · rfl
          · split
            · rfl
            · split
              · rfl
              · split
                · rfl
                · rw [hn]
                  split <;> rfl
      | timeout => simp only [Udp.timeout]; cases u.deadline <;> rfl
      | recvEnd => rfl
      | recvBegin r =>
        simp only [Udp.recvBegin]
        repeat' split
        all_goals rfl
    | some m =>
      cases e with
      | recvEnd =>
        simp only [Udp.recvEnd, hm]
        cases m with
        | failed => rfl
        | invalid e ws => rfl
        | last =>
          simp only
          split
          · rfl
          · rw [advance_eq]
            have hp : ∀ v : Udp, v.pop.dispatched = v.dispatched := by
              intro v; unfold Udp.pop; cases v.replyQ <;> rfl
            dsimp only
            split <;> split <;> simp only [hn, hp]
      | sendDone ok => rfl
      | timeout => rfl
      | recvBegin r => rfl

theorem dispatch_dispatched {N : Nat} {b : Buf} {u u' : Udp} (h : u.dispatch N b = .ok () u') :
    u'.dispatched = u.dispatched ++ [b] ∧ u'.crashed = u.crashed ∧ u'.exc = none ∧ u.exc = none := by
  unfold Udp.dispatch at h
  cases he : u.exc with
  | some e => rw [he] at h; cases h
  | none =>
    rw [he] at h
    simp only at h
    split at h <;> cases h <;> exact ⟨rfl, rfl, rfl, rfl⟩

/-- The invariants together. -/
structure UAll (c : Cfg) (N : Nat) (u : Udp) : Prop where
  crash : u.crashed = false
  inv : UInv N u
  ok : UOk u
  bufs : ∀ b ∈ u.dispatched, NoUB c b

theorem UAll.init (c : Cfg) (N : Nat) : UAll c N .init :=
  ⟨rfl, .init, ⟨by simp [Udp.init], by simp [Udp.init], by simp [Udp.init]⟩, by simp [Udp.init]⟩

theorem UAll.act {c : Cfg} {N : Nat} (h0 : 0 < N) (hN : N < 2 ^ 32) {u : Udp} (h : UAll c N u) (a : Act)
    (hb : ∀ b, a = .dispatch b → NoUB c b) (hd : (u.act c N a).dirty = false) : UAll c N (u.act c N a) := by
  obtain ⟨i1, i2, i3, i4⟩ := h
  cases a with
  | dispatch b =>
    simp only [Udp.act, i1, Bool.false_eq_true, if_false] at hd ⊢
    cases hx : u.dispatch N b with
    | ok x u' =>
      simp only
      obtain ⟨d1, d2, d3, d4⟩ := dispatch_dispatched hx
      refine ⟨d2.trans i1, i2.dispatch hN hx, (Frame.dispatch hx).ok (fun _ => d4) i3, ?_⟩
      rw [d1]
      intro y hy
      rcases List.mem_append.1 hy with hy | hy
      · exact i4 y hy
      · rw [List.mem_singleton.1 hy]; exact hb b rfl
    | exc e u' => exact ⟨i1, i2, i3, i4⟩
    | ub => exact ⟨i1, i2, i3, i4⟩
    | loops => exact ⟨i1, i2, i3, i4⟩
  | handler =>
    simp only [Udp.act, i1, Bool.false_eq_true, if_false] at hd ⊢
    refine ⟨i1, .handler hd, ⟨by simp [Udp.handler], ?_, by simp [Udp.handler]⟩, by simp [Udp.handler]⟩
    intro _ _; simp [Udp.handler]
  | ev e =>
    simp only [Udp.act] at hd ⊢
    have h1 := i2.ev (c := c) (e := e) h0 hN i1
    have h2 : (u.ev c N e).crashed = false := by
      refine h1.2 fun b hx => i4 b ?_
      rw [i2.disp, hx]; simp
    exact ⟨h2, h1.1 h2, i3.ev i2, by rw [ev_dispatched]; exact i4⟩

theorem fold_dirty {c : Cfg} {N : Nat} (as : List Act) {u : Udp} (h : (as.foldl (Udp.act c N) u).dirty = false) : u.dirty = false := by
  induction as generalizing u with
  | nil => exact h
  | cons a as ih => exact act_dirty (ih h)

theorem UAll.fold {c : Cfg} {N : Nat} (h0 : 0 < N) (hN : N < 2 ^ 32) (as : List Act) {u : Udp} (h : UAll c N u)
    (hb : ∀ b, Act.dispatch b ∈ as → NoUB c b) (hd : (as.foldl (Udp.act c N) u).dirty = false) :
    UAll c N (as.foldl (Udp.act c N) u) := by
  induction as generalizing u with
  | nil => exact h
  | cons a as ih =>
    exact ih (h.act h0 hN a (fun b e => hb b (by simp [e])) (fold_dirty as hd)) (fun b e => hb b (by simp [e])) hd

/-- Every reachable state satisfies the invariants, unless the handler ran with operations pending. -/
theorem sched_inv {c : Cfg} {N : Nat} (h0 : 0 < N) (hN : N < 2 ^ 32) (as : List Act) (hb : ∀ b, Act.dispatch b ∈ as → NoUB c b)
    (hd : (Udp.sched c N as).dirty = false) : UAll c N (Udp.sched c N as) := .fold h0 hN as (.init c N) hb hd

end Verif
