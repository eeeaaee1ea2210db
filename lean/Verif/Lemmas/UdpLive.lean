import Verif.Lemmas.Udp
/-! Progress of the UDP client: a measure that every callback decreases while `Flush` waits. -/

set_option autoImplicit false
set_option linter.unusedSimpArgs false

namespace Verif

/-- Something the network thread can do next. -/
def Udp.enabled (u : Udp) : Ev → Bool
  | .sendDone _ => u.mid.isNone && !u.sendOps.isEmpty
  | .recvBegin _ => u.mid.isNone && !u.recvOps.isEmpty
  | .recvEnd => u.mid.isSome
  | .timeout => u.mid.isNone && decide (u.deadline = .armed)

def Mid.phase : Option Mid → Nat
  | none => 3
  | some (.invalid _ _) => 2
  | some _ => 1

def Deadline.weight : Deadline → Nat
  | .armed => 1
  | .inf => 0

theorem Deadline.weight_le (d : Deadline) : d.weight ≤ 1 := by cases d <;> decide

/-- Bound for the number of steps of the network thread until `Flush` returns. -/
def Udp.work (u : Udp) : Nat :=
  9 * u.dispQ.length + 7 * u.disp.toList.length + 5 * (u.replyQ.length + u.reply.toList.length) + Mid.phase u.mid + u.deadline.weight

theorem next_work (N : Nat) (u : Udp) : (u.next N).work ≤ 9 * u.dispQ.length + 5 * (u.replyQ.length + u.reply.toList.length) +
    Mid.phase u.mid + 1 := by
  unfold Udp.next
  cases hq : u.dispQ with
  | nil =>
    have := Deadline.weight_le u.deadline
    simp [Udp.work, hq]; omega
  | cons b q =>
    simp only
    split
    · simp [Udp.work, Udp.write, Deadline.weight]; omega
    · have := Deadline.weight_le u.deadline
      simp [Udp.work, hq]; omega

theorem work_wake {n : Nat} {p : Prop} [Decidable p] (v : Udp) (h : v.work < n) :
    (if p then { v with deadline := .armed, flushDone := true } else v).work < n ∨
    (if p then { v with deadline := .armed, flushDone := true } else v).flushDone = true := by
  split
  · exact .inr rfl
  · exact .inl h

/-- Every step of the network thread, while `Flush` waits, brings it nearer to the end or ends the waiting. -/
theorem work_ev {c : Cfg} {N : Nat} (h0 : 0 < N) (hN : N < 2 ^ 32) {u : Udp} (h : UAll c N u) (e : Ev) (he : u.enabled e = true) :
    (u.ev c N e).work < u.work ∨ (u.ev c N e).flushDone = true := by
  have hev := (h.inv.ev h0 hN h.crash (e := e) (c := c)).2 (fun b hb => h.bufs b (by rw [h.inv.disp, hb]; simp))
  unfold Udp.ev at hev ⊢
  simp only [h.crash, Bool.false_eq_true, if_false] at hev ⊢
  cases e with
  | sendDone ok =>
    simp only [Udp.enabled, Bool.and_eq_true, Option.isNone_iff_eq_none, Bool.not_eq_true', List.isEmpty_eq_false_iff] at he
    obtain ⟨he1, he2⟩ := he
    simp only [he1] at hev ⊢
    unfold Udp.sendDone at hev ⊢
    cases hs : u.sendOps with
    | nil => exact absurd hs he2
    | cons x ops =>
      rw [hs] at hev
      simp only at hev ⊢
      split
      · exact .inr rfl
      · split
        · exact .inr rfl
        · rename_i hd
          rename_i hx
          simp only [hd, hx, Bool.false_eq_true, if_false] at hev
          cases hb : u.disp with
          | none => rw [hb] at hev; simp at hev
          | some b =>
            simp only
            split
            · exact .inr rfl
            · left
              have hw : u.deadline.weight = 1 := by
                cases hdd : u.deadline with
                | armed => rfl
                | inf => exact absurd hdd hd
              refine Nat.lt_of_le_of_lt (next_work N _) ?_
              cases hr : u.reply with
              | some r =>
                simp [Udp.work, hb, hr, hw, he1]; omega
              | none =>
                simp [Udp.work, hb, hr, hw, he1, Udp.read]; omega
  | recvBegin r =>
    simp only [Udp.enabled, Bool.and_eq_true, Option.isNone_iff_eq_none, Bool.not_eq_true', List.isEmpty_eq_false_iff] at he
    obtain ⟨he1, he2⟩ := he
    simp only [he1] at hev ⊢
    unfold Udp.recvBegin at hev ⊢
    cases hs : u.recvOps with
    | nil => exact absurd hs he2
    | cons x ops =>
      have hr8 := h.inv.rops
      rw [hs] at hev hr8
      simp only at hev ⊢
      split
      · exact .inr rfl
      · split
        · exact .inr rfl
        · rename_i hx hd
          simp only [hd, hx, Bool.false_eq_true, if_false] at hev
          cases hb : u.reply with
          | none => rw [hb] at hr8; simp at hr8
          | some b =>
            rw [hb] at hev
            simp only at hev ⊢
            left
            cases r with
            | none => simp [Udp.work, Udp.close, he1, hb, Mid.phase]
            | some ws =>
              simp only at hev ⊢
              cases hre : receiveReply c u.heap b ws with
              | mk o hp =>
                rw [hre] at hev
                cases o with
                | ok => simp [Udp.work, he1, hb, Mid.phase]
                | err e => simp [Udp.work, he1, hb, Mid.phase]
                | ub => simp at hev
  | recvEnd =>
    cases hm : u.mid with
    | none => simp [Udp.enabled, hm] at he
    | some m =>
      simp only [Udp.recvEnd, hm]
      cases m with
      | failed => exact .inr rfl
      | invalid e ws => left; simp [Udp.work, hm, Mid.phase]
      | last =>
        simp only
        cases hx : u.exc with
        | some e => exact .inr rfl
        | none =>
          simp only [Option.isSome_none, Bool.false_eq_true, if_false]
          have hro := h.inv.rops
          rw [hm] at hro
          cases hb : u.reply with
          | none => rw [hb] at hro; simp at hro
          | some b =>
            rw [advance_eq]
            dsimp only
            apply work_wake
            have hp : ({ u with exc := none, mid := none, reply := some b } : Udp).pop.work + 1 < u.work ∧
                9 * ({ u with exc := none, mid := none, reply := some b } : Udp).pop.dispQ.length +
                5 * (({ u with exc := none, mid := none, reply := some b } : Udp).pop.replyQ.length +
                  ({ u with exc := none, mid := none, reply := some b } : Udp).pop.reply.toList.length) +
                Mid.phase ({ u with exc := none, mid := none, reply := some b } : Udp).pop.mid + 1 < u.work := by
              have hw := Deadline.weight_le u.deadline
              unfold Udp.pop
              cases hq : u.replyQ with
              | nil => simp [Udp.work, hq, hb, hm, Mid.phase]; omega
              | cons r q => simp [Udp.work, Udp.read, hq, hb, hm, Mid.phase, Deadline.weight]; omega
            split
            · exact Nat.lt_of_le_of_lt (next_work N _) hp.2
            · exact Nat.lt_of_succ_lt hp.1
  | timeout =>
    simp only [Udp.enabled, Bool.and_eq_true, Option.isNone_iff_eq_none, decide_eq_true_eq] at he
    obtain ⟨he1, he2⟩ := he
    simp only [he1, Udp.timeout, he2]
    left
    simp [Udp.work, Udp.close, he1, he2, Deadline.weight]

/-- Once `Flush` can return, callbacks do not change its result. -/
theorem flush_stable {c : Cfg} {N : Nat} {u : Udp} (h : UInv N u) (e : Ev) (hf : u.flushDone = true) :
    (u.ev c N e).flushDone = true ∧ (u.ev c N e).exc = u.exc := by
  unfold Udp.ev
  split
  · exact ⟨hf, rfl⟩
  · cases hx : u.exc with
    | none =>
      obtain ⟨h1, h2⟩ := (h.flush hx).1 hf
      have h3 := h.sops' hx
      have h4 := h.rops' hx
      simp [h1] at h3
      simp [h2] at h4
      have h5 : u.mid = none := by
        cases hm : u.mid with
        | none => rfl
        | some m => rw [hm] at h4; simp at h4
      cases e with
      | sendDone ok => simp [h5, Udp.sendDone, h3, hf, hx]
      | recvBegin r => simp [h5, Udp.recvBegin, h4, hf, hx]
      | recvEnd => simp [h5, hf, hx]
      | timeout =>
        simp only [h5, Udp.timeout]
        cases u.deadline <;> exact ⟨hf, hx⟩
    | some x =>
      cases hm : u.mid with
      | none =>
        cases e with
        | sendDone ok => simp only [Udp.sendDone, hx]; cases u.sendOps <;> simp [hf, hx]
        | recvBegin r => simp only [Udp.recvBegin, hx]; cases u.recvOps <;> simp [hf, hx]
        | recvEnd => exact ⟨hf, hx⟩
        | timeout =>
          simp only [Udp.timeout]
          cases u.deadline <;> exact ⟨hf, hx⟩
      | some m =>
        have := h.midx (by simp [hx])
        rw [hm] at this
        have hml : m = .last := by rcases this with h | h <;> cases h; rfl
        subst hml
        cases e with
        | recvEnd => simp [Udp.recvEnd, hm, hx]
        | sendDone ok => exact ⟨hf, hx⟩
        | recvBegin r => exact ⟨hf, hx⟩
        | timeout => exact ⟨hf, hx⟩

end Verif
