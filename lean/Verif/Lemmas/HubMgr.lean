import Verif.Lemmas.HubApp
import Verif.Spec.HubApp
/-!
# The counters of a transaction manager

Lemmas for `Verif/Props/C68.lean`.
-/

set_option autoImplicit false
set_option linter.unusedSimpArgs false

namespace Verif.HubApp
open Verif.Hub (Bytes)
open Verif.TraMgr (TM Addr Lookup Resp be32 be16 ofBE unpack Unpacked)
open Verif.Spec.HubApp

theorem be4_eq (x : Nat) : Spec.Hub.be 4 x = be32 x := by
  simp [Spec.Hub.be, be32, List.range, List.range.loop]

theorem be2_eq (x : Nat) : Spec.Hub.be 2 x = be16 x := by
  simp [Spec.Hub.be, be16, List.range, List.range.loop]

/-! ## Number of packets -/

theorem unpack_some {look : Lookup} (f : Nat) : ∀ (bin : Bytes) (p nr : Nat),
    ∃ t, (unpack look f bin (some p) nr).1 = .done t (nr + (unpack look f bin (some p) nr).2.length) := by
  induction f with
  | zero => intro bin p nr; exact ⟨none, by simp [unpack]⟩
  | succ f ih =>
    intro bin p nr
    rw [unpack]
    simp only [TraMgr.dest]
    split
    · split
      · obtain ⟨t, ht⟩ := ih ((bin.drop 8).drop (4 * ofBE ((bin.drop 6).take 2))) p (nr + 1)
        refine ⟨t, ?_⟩
        rw [ht]
        simp only [List.length_cons]
        congr 1; omega
      · exact ⟨_, rfl⟩
    · split
      · exact ⟨none, rfl⟩
      · exact ⟨_, rfl⟩

/-- The number of packets is the number of those that were handed on; with an error there are none. -/
theorem unpack_number (look : Lookup) (f : Nat) (bin : Bytes) :
    (∃ t, (unpack look f bin none 0).1 = .done t (unpack look f bin none 0).2.length) ∨
    ((unpack look f bin none 0).2 = [] ∧ ((unpack look f bin none 0).1 = .crash ∨
      ∃ ip port, (unpack look f bin none 0).1 = .error (be32 8 ++ be32 ip ++ be16 port ++ be16 7))) := by
  cases f with
  | zero => exact .inl ⟨none, by simp [unpack]⟩
  | succ f =>
    rw [unpack]
    simp only [TraMgr.dest]
    split
    · cases look with
      | blocked => exact .inr ⟨rfl, .inr ⟨_, _, rfl⟩⟩
      | error => exact .inr ⟨rfl, .inl rfl⟩
      | pid p =>
        simp only []
        split
        · obtain ⟨t, ht⟩ := unpack_some (look := .pid p) f ((bin.drop 8).drop (4 * ofBE ((bin.drop 6).take 2))) p (0 + 1)
          refine .inl ⟨t, ?_⟩
          rw [ht]
          simp only [List.length_cons]
          congr 1; omega
        · exact .inl ⟨_, rfl⟩
    · split
      · exact .inl ⟨none, rfl⟩
      · exact .inl ⟨_, rfl⟩

/-! ## Malformed messages -/

theorem packet_iff {b : Bytes} : Packet b ↔ 8 ≤ b.length ∧ b.length = 8 + 4 * ofBE ((b.drop 6).take 2) := by
  constructor
  · rintro ⟨h1, h2, body, hl, hd, hb⟩
    rw [hd]
    simp only [List.take_succ_cons, List.take_zero, ofBE, List.foldl_cons, List.foldl_nil]
    omega
  · rintro ⟨h8, hl⟩
    match hd : b.drop 6 with
    | [] => have := congrArg List.length hd; simp at this; omega
    | [x] => have := congrArg List.length hd; simp at this; omega
    | h1 :: h2 :: body =>
      have hlen := congrArg List.length hd
      simp only [List.length_drop, List.length_cons] at hlen
      refine ⟨h1, h2, body, by omega, hd, ?_⟩
      rw [hd] at hl
      simp only [List.take_succ_cons, List.take_zero, ofBE, List.foldl_cons, List.foldl_nil] at hl
      omega

theorem wellFormed_iff {bin : Bytes} : WellFormed bin ↔ 8 + 4 * ofBE ((bin.drop 6).take 2) ≤ bin.length ∧
    ((bin.drop 8).drop (4 * ofBE ((bin.drop 6).take 2)) = [] ∨ WellFormed ((bin.drop 8).drop (4 * ofBE ((bin.drop 6).take 2)))) := by
  constructor
  · intro h
    cases h with
    | one hb =>
      have := packet_iff.mp hb
      refine ⟨by omega, .inl ?_⟩
      apply List.eq_nil_of_length_eq_zero
      simp only [List.length_drop]; omega
    | @more b t hb ht =>
      obtain ⟨h8, hl⟩ := packet_iff.mp hb
      have e1 : ((b ++ t).drop 6).take 2 = (b.drop 6).take 2 := by
        rw [List.drop_append_of_le_length (by omega), List.take_append_of_le_length (by rw [List.length_drop]; omega)]
      have e2 : ((b ++ t).drop 8).drop (4 * ofBE ((b.drop 6).take 2)) = t := by
        rw [List.drop_drop, ← hl, List.drop_left]
      rw [e1, e2, List.length_append]
      exact ⟨by omega, .inr ht⟩
  · rintro ⟨hl, ht⟩
    generalize hw : ofBE ((bin.drop 6).take 2) = w at hl ht
    have hsplit : bin = bin.take (8 + 4 * w) ++ (bin.drop 8).drop (4 * w) := by
      rw [List.drop_drop, List.take_append_drop]
    have hpk : Packet (bin.take (8 + 4 * w)) := by
      rw [packet_iff]
      have hlen : (bin.take (8 + 4 * w)).length = 8 + 4 * w := by rw [List.length_take]; omega
      have e1 : ((bin.take (8 + 4 * w)).drop 6).take 2 = (bin.drop 6).take 2 := by
        rw [List.drop_take, List.take_take]
        congr 1; omega
      rw [hlen, e1, hw]
      omega
    rcases ht with ht | ht
    · rw [hsplit, ht, List.append_nil]; exact .one hpk
    · rw [hsplit]; exact .more hpk ht

theorem dest_some (look : Lookup) (p : Nat) : TraMgr.dest look (some p) = .pid p := rfl

theorem malformed_iff {look : Lookup} {p : Nat} (f : Nat) : ∀ (bin : Bytes) (pid : Option Nat), bin.length < f → TraMgr.dest look pid = .pid p →
    (malformed look f bin pid = true ↔ ¬ WellFormed bin) := by
  induction f with
  | zero => intro bin pid h; omega
  | succ f ih =>
    intro bin pid hf hd
    rw [malformed, wellFormed_iff]
    simp only [hd]
    by_cases hl : 8 + 4 * ofBE ((bin.drop 6).take 2) ≤ bin.length
    · rw [if_pos hl]
      by_cases ht : 0 < ((bin.drop 8).drop (4 * ofBE ((bin.drop 6).take 2))).length
      · rw [if_pos ht, ih _ _ ?_ (dest_some look p)]
        · have hne : (bin.drop 8).drop (4 * ofBE ((bin.drop 6).take 2)) ≠ [] := by
            intro e; rw [e] at ht; simp at ht
          simp only [hl, hne, true_and, false_or]
        · simp only [List.length_drop]; omega
      · rw [if_neg ht]
        have he : (bin.drop 8).drop (4 * ofBE ((bin.drop 6).take 2)) = [] := List.eq_nil_of_length_eq_zero (by omega)
        rw [he]
        simp [hl]
    · rw [if_neg hl]
      simp [hl]

theorem wellFormed_len {bin : Bytes} (h : WellFormed bin) : bin.length % 4 = 0 := by
  induction h with
  | one hb => have := packet_iff.mp hb; omega
  | more hb _ ih => have := packet_iff.mp hb; rw [List.length_append]; omega

/-! ## The counters of one transaction manager -/

structure Mgr (s : TM) (c : Table) : Prop where
  req : c .requestsIn = s.casts.length
  bal : (c .responsesSent : Int) + s.nrAcc + s.inFlight = s.casts.length
  acc : Answers s.acc s.nrAcc
  sent : Sent s.sent (c .responsesSent)

theorem mgr_init : Mgr TM.init Table.zero := ⟨rfl, rfl, .nil, .nil⟩

theorem answers_resp {m : Bytes} {n : Nat} (r : Resp) (h : Answers m n) : Answers (m ++ r.bytes) (n + 1) := by
  have := Answers.snoc r.addr.ip r.addr.port r.code r.data h
  simpa only [be4_eq, be2_eq, Resp.bytes] using this

theorem mgr_step {s : TM} {c : Table} (h : Mgr s c) (hr : s.running = true) (e : TraMgr.Ev) :
    Mgr (s.step e) (fun k => c k + count s Table.zero e k) := by
  cases e with
  | chunk bin look =>
    simp only [TM.step, hr, if_true]
    unfold TM.chunk
    by_cases hl : bin.length % 4 = 0
    · have hin : ∀ t : Table, (if malformed look (bin.length + 1) bin none = true then t.add .requestsMalformed 1 else t) .requestsIn = t .requestsIn := by
        intro t; split <;> simp [add_apply]
      have hre : ∀ t : Table, (if malformed look (bin.length + 1) bin none = true then t.add .requestsMalformed 1 else t) .responsesSent = t .responsesSent := by
        intro t; split <;> simp [add_apply]
      simp only [hl, if_true]
      rcases unpack_number look (bin.length + 1) bin with ⟨t, ht⟩ | ⟨h0, hcr | ⟨ip, port, her⟩⟩
      · rw [ht]
        have e1 : count s Table.zero (.chunk bin look) .requestsIn = (unpack look (bin.length + 1) bin none 0).2.length := by
          simp only [count, hl, if_true, ht, add_apply, hin]; simp [Table.zero]
        have e2 : count s Table.zero (.chunk bin look) .responsesSent = 0 := by
          simp only [count, hl, if_true, ht, add_apply, hre]; simp [Table.zero]
        refine ⟨?_, ?_, h.acc, ?_⟩
        · simp only [e1, List.length_append, h.req]
        · have := h.bal; simp only [e2, List.length_append, Nat.add_zero]; push_cast; omega
        · simp only [e2, Nat.add_zero]; exact h.sent
      · rw [hcr]
        have e1 : count s Table.zero (.chunk bin look) .requestsIn = 0 := by
          simp only [count, hl, if_true, hcr, hin]; simp [Table.zero]
        have e2 : count s Table.zero (.chunk bin look) .responsesSent = 0 := by
          simp only [count, hl, if_true, hcr, hre]; simp [Table.zero]
        refine ⟨?_, ?_, h.acc, ?_⟩
        · simp only [e1, h0, List.append_nil, h.req, Nat.add_zero]
        · simp only [e2, h0, List.append_nil, Nat.add_zero]; exact h.bal
        · simp only [e2, Nat.add_zero]; exact h.sent
      · rw [her]
        have e1 : count s Table.zero (.chunk bin look) .requestsIn = 0 := by
          simp only [count, hl, if_true, her, hin]; simp [Table.zero]
        have e2 : count s Table.zero (.chunk bin look) .responsesSent = 0 := by
          simp only [count, hl, if_true, her, hre]; simp [Table.zero]
        refine ⟨?_, ?_, h.acc, ?_⟩
        · simp only [e1, h0, List.append_nil, h.req, Nat.add_zero]
        · simp only [e2, h0, List.append_nil, Nat.add_zero]; exact h.bal
        · simp only [e2, Nat.add_zero]
          exact .refusal h.sent ⟨ip, port, by rw [be4_eq, be4_eq, be2_eq, be2_eq]⟩
    · have e1 : count s Table.zero (.chunk bin look) .requestsIn = 0 := by simp [count, hl, add_apply, Table.zero]
      have e2 : count s Table.zero (.chunk bin look) .responsesSent = 0 := by simp [count, hl, add_apply, Table.zero]
      simp only [hl, if_false]
      exact ⟨by simp only [e1, Nat.add_zero]; exact h.req, by simp only [e2, Nat.add_zero]; exact h.bal, h.acc, by simp only [e2, Nat.add_zero]; exact h.sent⟩
  | response r =>
    have e1 : count s Table.zero (.response r) .requestsIn = 0 := by
      simp only [count]
      by_cases ht : some r.addr = s.target
      · rw [if_pos ht]
        cases s.q with
        | nil => rfl
        | cons n q => by_cases hn : s.nrAcc + 1 = n <;> simp [hn, add_apply, Table.zero]
      · rw [if_neg ht]; rfl
    simp only [TM.step, hr, if_true]
    unfold TM.response
    by_cases ht : some r.addr = s.target
    · rw [if_pos ht]
      cases hq : s.q with
      | nil =>
        have e2 : count s Table.zero (.response r) .responsesSent = 0 := by simp [count, ht, hq, Table.zero]
        exact ⟨by simp only [e1, Nat.add_zero]; exact h.req, by simp only [e2, Nat.add_zero]; exact h.bal, h.acc, by simp only [e2, Nat.add_zero]; exact h.sent⟩
      | cons n q =>
        by_cases hn : s.nrAcc + 1 = n
        · have e2 : count s Table.zero (.response r) .responsesSent = n := by
            simp only [count]; rw [if_pos ht, hq]; simp only [hn, if_true, add_apply]; simp [Table.zero]
          simp only [hn, if_true]
          refine ⟨by simp only [e1, Nat.add_zero]; exact h.req, ?_, .nil, ?_⟩
          · have := h.bal; simp only [e2]; push_cast; omega
          · simp only [e2]
            have := Sent.answers h.sent (answers_resp r h.acc)
            rwa [hn] at this
        · have e2 : count s Table.zero (.response r) .responsesSent = 0 := by
            simp only [count]; rw [if_pos ht, hq]; simp [hn, Table.zero]
          simp only [hn, if_false]
          refine ⟨by simp only [e1, Nat.add_zero]; exact h.req, ?_, answers_resp r h.acc, by simp only [e2, Nat.add_zero]; exact h.sent⟩
          have := h.bal; simp only [e2]; push_cast; omega
    · have e2 : count s Table.zero (.response r) .responsesSent = 0 := by simp [count, ht, Table.zero]
      rw [if_neg ht]
      exact ⟨by simp only [e1, Nat.add_zero]; exact h.req, by simp only [e2, Nat.add_zero]; exact h.bal, h.acc, by simp only [e2, Nat.add_zero]; exact h.sent⟩
  | stray => simpa [TM.step, count, Table.zero] using h
  | closed =>
    simp only [TM.step, count, Table.zero, Nat.add_zero]
    exact ⟨h.req, h.bal, h.acc, h.sent⟩

/-! ## All of them -/

def MInv (l : List Proc) (c : Nat → Table) : Prop := ∀ (i : Nat) (p : Proc), l[i]? = some p → p.kind = .manager → Mgr p.tm (c i)

theorem MInv.set {l : List Proc} {c c' : Nat → Table} {i : Nat} {q : Proc} (h : MInv l c) (hq : q.kind = .manager → Mgr q.tm (c' i))
    (hc : ∀ j, j ≠ i → c' j = c j) : MInv (l.set i q) c' := by
  intro j r hr hk
  by_cases hj : j = i
  · subst hj
    rw [List.getElem?_set] at hr
    simp only [if_true] at hr
    split at hr
    · injection hr with hr; subst hr; exact hq hk
    · cases hr
  · rw [List.getElem?_set_ne (Ne.symm hj)] at hr
    rw [hc j hj]; exact h j r hr hk

theorem MInv.push {l : List Proc} {c : Nat → Table} {x : Proc} (h : MInv l c) (hx : x.tm = TM.init) (hz : c l.length = Table.zero) : MInv (l ++ [x]) c := by
  intro j r hr hk
  rcases Nat.lt_or_ge j l.length with hj | hj
  · rw [List.getElem?_append_left hj] at hr; exact h j r hr hk
  · rw [List.getElem?_append_right hj] at hr
    have h0 : j - l.length = 0 := by
      rcases Nat.eq_zero_or_pos (j - l.length) with h0 | h0
      · exact h0
      · rw [List.getElem?_eq_none (by simp only [List.length_singleton]; omega)] at hr; simp at hr
    rw [h0] at hr
    simp only [List.getElem?_cons_zero, Option.some.injEq] at hr
    subst hr
    have hj' : j = l.length := by omega
    rw [hj', hz, hx]; exact mgr_init

theorem handle_procs (a : App) (i : Nat) (p : Proc) (m : Msg) : (a.handle i p m).procs = a.procs ∨ (a.handle i p m).procs = a.procs.set i { p with table := none } := by
  cases m with
  | connected => exact .inl rfl
  | disconnected => exact .inl rfl
  | newTable =>
    simp only [App.handle]
    cases p.kind <;> exact .inl rfl
  | transfer =>
    simp only [App.handle]
    cases p.table with
    | none => exact .inl rfl
    | some t => cases hk : p.kind <;> exact .inr (by simp [App.set, hk])

theorem minv_step {n : Int} {a a' : App} {c : Nat → Table} {e : Ev} (h : Inv n a c) (hM : MInv a.procs c) (hs : a.step e = some a') :
    MInv a'.procs fun j k => c j k + made a j e k := by
  cases e with
  | accept i r =>
    rw [made_none (by simp) (by simp)]
    simp only [App.step] at hs
    split at hs
    · rename_i p hp
      split at hs
      · rename_i hc
        injection hs with hs; subst hs
        refine hM.set (fun hk => ?_) fun _ _ => rfl
        have : (p.accept r).tm = p.tm := by cases r <;> rfl
        rw [this]; exact hM i p hp hc.1
      · cases hs
    · cases hs
  | take i x =>
    simp only [App.step] at hs
    split at hs
    · rename_i p hp
      split at hs
      · rename_i hc
        injection hs with hs; subst hs
        refine hM.set (fun hk => ?_) fun j hj => by funext k; simp [made, Ne.symm hj, Table.zero]
        have e1 : (p.take x).tm = p.tm.step x := by
          unfold Proc.take; simp only []; repeat' split
          all_goals rfl
        have e2 : (fun k => c i k + made a i (.take i x) k) = fun k => c i k + count p.tm Table.zero x k := by
          funext k; simp [made, hp]
        rw [e1, e2]
        exact mgr_step (hM i p hp hc.1) ((h.procs i p hp).run hc.1 hc.2).1 x
      · cases hs
    · cases hs
  | sendFails i =>
    rw [made_none (by simp) (by simp)]
    simp only [App.step] at hs
    split at hs
    · rename_i p hp
      split at hs
      · rename_i hc
        injection hs with hs; subst hs
        exact hM.set (fun hk => hM i p hp hk) fun _ _ => rfl
      · cases hs
    · cases hs
  | device =>
    rw [made_none (by simp) (by simp)]
    simp only [App.step] at hs
    injection hs with hs; subst hs
    exact hM.push rfl (h.fresh _ (Nat.le_refl _))
  | count i k =>
    simp only [App.step] at hs
    split at hs
    · rename_i p hp
      split at hs
      · rename_i hc
        injection hs with hs; subst hs
        refine hM.set (fun hk => ?_) fun j hj => by funext k; simp [made, Ne.symm hj, Table.zero]
        have hk : p.kind = .manager := hk
        rw [hc.1] at hk; cases hk
      · cases hs
    · cases hs
  | exit i =>
    rw [made_none (by simp) (by simp)]
    simp only [App.step] at hs
    split at hs
    · rename_i p hp
      split at hs
      · rename_i hc
        injection hs with hs; subst hs
        exact hM.set (fun hk => hM i p hp hk) fun _ _ => rfl
      · cases hs
    · cases hs
  | listen i =>
    rw [made_none (by simp) (by simp)]
    simp only [App.step] at hs
    split at hs
    · rename_i p hp
      split at hs
      · cases hs
      · rename_i m hm
        injection hs with hs; subst hs
        refine MInv.push (hM.set (fun hk => hM i p hp hk) fun _ _ => rfl) rfl ?_
        show c ((a.procs.set i { p with toListener := m }).length) = _
        rw [List.length_set]; exact h.fresh _ (Nat.le_refl _)
    · cases hs
  | stats i =>
    rw [made_none (by simp) (by simp)]
    simp only [App.step] at hs
    split at hs
    · rename_i p hp
      split at hs
      · cases hs
      · rename_i m ms hm
        split at hs
        · injection hs with hs; subst hs
          have h1 : MInv (a.set i { p with toStats := ms }).procs c := hM.set (fun hk => hM i p hp hk) fun _ _ => rfl
          rcases handle_procs (a.set i { p with toStats := ms }) i { p with toStats := ms } m with e | e
          · rw [e]; exact h1
          · rw [e]; exact h1.set (fun hk => hM i p hp hk) fun _ _ => rfl
        · cases hs
    · cases hs

theorem minv_run {n : Int} (es : List Ev) : ∀ {a a' : App} {c : Nat → Table}, Inv n a c → MInv a.procs c → a.run es = some a' →
    MInv a'.procs fun j k => c j k + counted a j es k := by
  induction es with
  | nil =>
    intro a a' c h hM hr
    simp only [App.run, Option.some.injEq] at hr
    subst hr
    exact hM
  | cons e es ih =>
    intro a a' c h hM hr
    rw [App.run] at hr
    cases hs : a.step e with
    | none => rw [hs] at hr; cases hr
    | some b =>
      rw [hs] at hr
      have := ih (inv_step h hs) (minv_step h hM hs) hr
      have he : (fun j k => c j k + counted a j (e :: es) k) = fun j k => c j k + made a j e k + counted b j es k := by
        funext j k; rw [counted, hs]; simp only []; omega
      rw [he]; exact this

/-- In every run from the start. -/
theorem mreach {es : List Ev} {a : App} (hr : App.init.run es = some a) : MInv a.procs fun j => counted App.init j es := by
  have h0 : MInv App.init.procs fun _ => Table.zero := by
    intro i p h _
    cases i with
    | zero => simp [App.init] at h; subst h; exact mgr_init
    | succ i => simp [App.init] at h
  have := minv_run es inv_init h0 hr
  simpa [Table.zero] using this

end Verif.HubApp
