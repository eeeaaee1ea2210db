import Verif.Lemmas.TargetTest
import Verif.Props.C71
/-!
# C77: the test script for targets

`test_ipbus2_target.escript` (controlhub) passes a target if its replies are the prescribed ones, and only then.
-/

set_option autoImplicit false
set_option linter.unusedSimpArgs false

namespace Verif.TgtTest
open Verif.Spec
open Verif.Hub (Bytes)

variable {τ σ : Type}

/-! ## One iteration -/

theorem prepare_ok {m : W → W} {s : State} (hn : s.next ≤ 65535) (hg : Good m s.rem) (g : Gen) :
    ∃ (pid : Nat) (p : Pkt) (g' : Gen) (ws : List W) (txns : List (Nat × Txn)), prepare s g = some (pid, p, g') ∧ (pid = 0 ∨ pid = s.next) ∧ p.req = octets true ws ∧
      parsePacket .v2 ws = some (pid, txns) ∧ txns ≠ [] ∧ (∀ x ∈ txns, x.2.tested) ∧ p.res = answer ws txns ram m ∧ p.req.length ≤ 1472 ∧ p.res.length ≤ 1472 ∧
      Good (execTxns .v2 ram (txns.map Prod.snd) m).2 p.rem ∧ (p.inside.any fun r => (regValuesAfter r).isNone) = false := by
  obtain ⟨l, g', t1, t2, t3⟩ := topUp_ok 400 400 s.rem (uniform 2 g).2 (by omega)
  have hz := randInt_range 8 (340 * 4) g' (by decide) (by decide)
  have hpid : (if (uniform 2 g).1 = 1 then s.next else 0) = 0 ∨ (if (uniform 2 g).1 = 1 then s.next else 0) = s.next := by split <;> simp
  obtain ⟨p, ws, txns, e1, e2, e3, e4, e5, e6, e7, e8, e9, e10⟩ :=
    packet_ok (t3 m hg) t2 (pid := if (uniform 2 g).1 = 1 then s.next else 0) hz.1 (by omega)
  refine ⟨_, p, (randInt 8 (340 * 4) g').2, ws, txns, ?_, hpid, e2, e3, e4, e5, e6, e7, e8, e9, ?_⟩
  · simp only [prepare, t1, e1, Option.map_some]
  · rw [List.any_eq_false]
    intro r hr
    have := e10 r hr
    cases h : regValuesAfter r <;> simp_all

theorem newExpected_eq {pid next : Nat} : newExpected pid next = idAfter next pid := rfl

theorem idAfter_le {pid next : Nat} (h : next ≤ 65535) : idAfter next pid ≤ 65535 := by
  simp only [idAfter, nextId]
  split
  · exact h
  · split <;> omega

theorem statusRequest_eq : statusRequest = statusAsk := by decide +kernel

theorem expectedStatus_eq {next : Nat} (h : next ≤ 65535) : expectedStatus next = statusHead 2000 5 next ++ List.replicate 48 0 := by
  have e : next / 256 % 256 = next / 256 := by omega
  have e1 : bin32 2000 = Spec.Hub.be 4 2000 := by decide +kernel
  have e2 : bin32 5 = Spec.Hub.be 4 5 := by decide +kernel
  rw [expectedStatus, statusHead, e, e1, e2]

theorem resendRequest_eq {pid : Nat} (h : pid ≤ 65535) : resendRequest pid = resendAsk pid := by
  simp only [resendRequest, bin32, resendAsk, List.cons.injEq, and_true]
  omega

theorem statusHead_length (a b n : Nat) : (statusHead a b n).length = 16 := by simp [statusHead, Spec.Hub.be]

theorem and_255 (l : List Nat) (h : ∀ x ∈ l, x < 256) : List.zipWith (· &&& ·) l (List.replicate l.length 255) = l := by
  induction l with
  | nil => rfl
  | cons x l ih =>
    have hx : x &&& 255 = x := by
      have := Nat.and_two_pow_sub_one_eq_mod x 8
      rw [show 2 ^ 8 - 1 = 255 from rfl] at this
      rw [this]
      exact Nat.mod_eq_of_lt (h x (by simp))
    rw [List.length_cons, List.replicate_succ, List.zipWith_cons_cons, hx, ih fun y hy => h y (by simp [hy])]

theorem and_0 (l : List Nat) : List.zipWith (· &&& ·) l (List.replicate l.length 0) = List.replicate l.length 0 := by
  induction l with
  | nil => rfl
  | cons x l ih => rw [List.length_cons, List.replicate_succ, List.zipWith_cons_cons, ih, Nat.and_zero]

theorem masked {a b : List Nat} (ha : a.length = 16) (hb : b.length = 48) (h : ∀ x ∈ a, x < 256) :
    binaryAnd (a ++ b) (some statusMask) = some (a ++ List.replicate 48 0) := by
  have h1 : (a ++ b).length = statusMask.length := by rw [List.length_append, ha, hb]; rfl
  rw [binaryAnd, if_pos h1, statusMask, List.zipWith_append (by simp [ha])]
  have k1 := and_255 a h
  have k2 := and_0 b
  rw [ha] at k1
  rw [hb] at k2
  rw [k1, k2]

/-- A datagram has been checked and found right. -/
theorem sendCheck_none {w : World τ} {t : τ} {req exp : Bytes} {mask : Option Bytes} (h : (sendCheck w t req exp mask).1 = none) :
    ∃ a, (w.resp t req).1 = some a ∧ binaryAnd a mask = some exp := by
  simp only [sendCheck] at h
  split at h
  · cases h
  · rename_i a ha
    split at h
    · cases h
    · rename_i x hx
      split at h
      · rename_i he; subst he; exact ⟨a, ha, hx⟩
      · cases h

theorem sendCheck_ok {w : World τ} {t t' : τ} {req exp a : Bytes} {mask : Option Bytes} (h : w.resp t req = (some a, t')) (hm : binaryAnd a mask = some exp) :
    sendCheck w t req exp mask = (none, some a, t') := by
  simp [sendCheck, h, hm]

/-- The status has been found right. -/
theorem status_none {w : World τ} (hb : ∀ t p a, (w.resp t p).1 = some a → ∀ x ∈ a, x < 256) {t : τ} {next : Nat} (hn : next ≤ 65535)
    (h : (sendCheck w t statusRequest (expectedStatus next) (some statusMask)).1 = none) :
    ∃ more : List Nat, (sendCheck w t statusRequest (expectedStatus next) (some statusMask)).2.1 = some (statusHead 2000 5 next ++ more) ∧ more.length = 48 := by
  obtain ⟨a, h1, h2⟩ := sendCheck_none h
  have hl : a.length = 64 := by
    simp only [binaryAnd] at h2
    split at h2
    · rename_i h; rw [h]; decide
    · cases h2
  have hs : binaryAnd (a.take 16 ++ a.drop 16) (some statusMask) = some (a.take 16 ++ List.replicate 48 0) :=
    masked (by simp [hl]) (by simp [hl]) fun x hx => hb _ _ _ h1 x (List.mem_of_mem_take hx)
  rw [List.take_append_drop, h2, expectedStatus_eq hn, Option.some.injEq] at hs
  have he := List.append_inj_left hs (by simp [statusHead_length, hl])
  refine ⟨a.drop 16, ?_, by simp [hl]⟩
  show (w.resp t statusRequest).1 = _
  rw [h1, he, List.take_append_drop]

theorem plain_none {w : World τ} {t : τ} {req exp : Bytes} (h : (sendCheck w t req exp none).1 = none) : (sendCheck w t req exp none).2.1 = some exp := by
  obtain ⟨a, h1, h2⟩ := sendCheck_none h
  cases h2
  exact h1

/-! ## Only good targets pass -/

theorem loop_detects {w : World τ} (hb : ∀ t p a, (w.resp t p).1 = some a → ∀ x ∈ a, x < 256) {iMax : Int} (fuel : Nat) {m : W → W} {s : State} (hn : s.next ≤ 65535) (hg : Good m s.rem)
    {g : Gen} {t t' : τ} {log : List Exch} (h : testLoop w iMax fuel s g t = (.success, log, t')) :
    ∃ n : Nat, iMax = s.i + n ∧ Passes (n + 1) s.next m log := by
  induction fuel generalizing m s g t log with
  | zero => cases h
  | succ fuel ih =>
    obtain ⟨pid, p, g', ws, txns, e1, e2, e3, e4, e5, e6, e7, e8, e9, e10, e11⟩ := prepare_ok hn hg g
    have hpid : pid ≤ 65535 := by omega
    rw [testLoop, e1] at h
    simp only [e11, Bool.false_eq_true, if_false] at h
    generalize hA : sendCheck w t statusRequest (expectedStatus s.next) (some statusMask) = A at h
    cases hA1 : A.1 with
    | some o =>
      exfalso
      simp only [hA1, Prod.mk.injEq] at h
      obtain ⟨rfl, _⟩ := h
      rw [← hA] at hA1
      simp only [sendCheck] at hA1
      split at hA1
      · cases hA1
      · split at hA1
        · cases hA1
        · split at hA1 <;> cases hA1
    | none =>
      simp only [hA1] at h
      obtain ⟨more, a1, a2⟩ := status_none hb hn (by rw [hA]; exact hA1)
      rw [hA] at a1
      generalize hB : sendCheck w A.2.2 p.req p.res none = B at h
      have succ : ∀ (r : Option Outcome × Option Bytes × τ) (t : τ) (req exp : Bytes), sendCheck w t req exp none = r → r.1 ≠ some .success := by
        intro r t req exp hr hs
        rw [← hr] at hs
        simp only [sendCheck] at hs
        split at hs
        · cases hs
        · split at hs
          · cases hs
          · split at hs <;> cases hs
      cases hB1 : B.1 with
      | some o =>
        exfalso
        simp only [hB1, Prod.mk.injEq] at h
        obtain ⟨rfl, _⟩ := h
        exact succ B _ _ _ hB hB1
      | none =>
        simp only [hB1] at h
        have b1 := plain_none (w := w) (t := A.2.2) (req := p.req) (exp := p.res) (by rw [hB]; exact hB1)
        rw [hB] at b1
        generalize hC : sendCheck w B.2.2 (resendRequest pid) p.res none = C at h
        cases hC1 : C.1 with
        | some o =>
          exfalso
          simp only [hC1, Prod.mk.injEq] at h
          obtain ⟨rfl, _⟩ := h
          exact succ C _ _ _ hC hC1
        | none =>
          simp only [hC1] at h
          have c1 := plain_none (w := w) (t := B.2.2) (req := resendRequest pid) (exp := p.res) (by rw [hC]; exact hC1)
          rw [hC] at c1
          rw [a1, b1, c1, e3, e7, statusRequest_eq, resendRequest_eq hpid] at h
          split at h
          · cases h
          · split at h
            · rename_i hi
              simp only [Prod.mk.injEq] at h
              obtain ⟨_, rfl, _⟩ := h
              exact ⟨0, by omega, .cons a2 e4 e5 e2 e6 (by rw [← e3]; exact e8) (by rw [← e7]; exact e9) .nil⟩
            · generalize hq : testLoop w iMax fuel ⟨s.i + 1, newExpected pid s.next, p.rem⟩ g' (w.ping C.2.2).2 = q at h
              obtain ⟨q1, q2, q3⟩ := q
              simp only [Prod.mk.injEq] at h
              obtain ⟨rfl, rfl, rfl⟩ := h
              obtain ⟨n, n1, n2⟩ := ih (s := ⟨s.i + 1, newExpected pid s.next, p.rem⟩) (idAfter_le hn) e10 hq
              refine ⟨n + 1, ?_, ?_⟩
              · simp only at n1; omega
              · exact .cons a2 e4 e5 e2 e6 (by rw [← e3]; exact e8) (by rw [← e7]; exact e9) n2

/-- **C77, only good targets pass.** If the script ends with success, it has made as many rounds as it should have, and in each of them the target has reported 2000
bytes, 5 buffers and the right packet ID, has answered the transactions of a control packet like a memory (whatever this memory contained at the beginning), and has
sent the same reply once more. -/
theorem C77_detects {w : World τ} (hb : ∀ t p a, (w.resp t p).1 = some a → ∀ x ∈ a, x < 256) {first : Nat} {iterations : Int} {fuel : Nat} {g : Gen} {t t' : τ} {log : List Exch}
    (h : main w first iterations fuel g t = some (.success, log, t')) :
    ∃ n : Nat, iterations = n ∧ 1 ≤ n ∧ ∀ m, Passes n first m log := by
  simp only [main] at h
  split at h
  · cases h
  · rename_i hf
    rw [Option.some.injEq] at h
    have key := fun m => loop_detects (m := m) hb fuel (s := ⟨1, first, []⟩) (by simp only; omega) trivial h
    obtain ⟨n, n1, _⟩ := key fun _ => 0
    simp only at n1
    refine ⟨n + 1, by omega, by omega, fun m => ?_⟩
    obtain ⟨n', n2, n3⟩ := key m
    simp only at n2 n3
    have : n' = n := by omega
    rw [← this]; exact n3

/-! ## Good targets pass -/

theorem sim_txns {tg : Target σ} {get : σ → W → W} (h : ActsAsRam tg Tested get) (ts : List Txn) (ht : ∀ t ∈ ts, t.tested) (s : σ) (m : W → W) (hs : ∀ a, Tested a → get s a = m a) :
    (execTxns .v2 tg ts s).1 = (execTxns .v2 ram ts m).1 ∧ ∀ a, Tested a → get (execTxns .v2 tg ts s).2 a = (execTxns .v2 ram ts m).2 a := by
  induction ts generalizing s m with
  | nil => exact ⟨rfl, hs⟩
  | cons t ts ih =>
    obtain ⟨k1, k2⟩ := Soak.sim_accs (v := .v2) h t.accs (by
      intro a ha
      have := ht t (by simp) a ha
      cases a <;> exact this) s m hs
    obtain ⟨i1, i2⟩ := ih (fun x hx => ht x (by simp [hx])) _ _ k2
    simp only [execTxns]
    exact ⟨by rw [k1, i1], i2⟩

/-- A good target with memory at the tested addresses that can be pinged. -/
structure Suitable (w : World τ) (tg : Target σ) (mtu buffers : Nat) (next : τ → Nat) (mem : τ → σ) (kept : τ → Nat × List Nat) (get : σ → W → W) : Prop where
  good : GoodTarget w.resp tg mtu buffers 1472 next mem kept
  ram : ActsAsRam tg Tested get
  ping : ∀ t, ∃ t', w.ping t = (true, t') ∧ next t' = next t ∧ mem t' = mem t

theorem head_bytes {next : Nat} (h : next ≤ 65535) : ∀ x ∈ statusHead 2000 5 next, x < 256 := by
  have e1 : Spec.Hub.be 4 2000 = [0, 0, 7, 208] := by decide +kernel
  have e2 : Spec.Hub.be 4 5 = [0, 0, 0, 5] := by decide +kernel
  rw [statusHead, e1, e2]
  intro x hx
  simp at hx
  omega

theorem iterate {w : World τ} {tg : Target σ} {next : τ → Nat} {mem : τ → σ} {kept : τ → Nat × List Nat} {get : σ → W → W} (hS : Suitable w tg 2000 5 next mem kept get)
    {iMax : Int} (fuel : Nat) {m : W → W} {s : State} (hn : s.next ≤ 65535) (hg : Good m s.rem) (g : Gen) {t : τ} (ht : next t = s.next) (hm : ∀ a, Tested a → get (mem t) a = m a) :
    ∃ s' m' g' t' log, s'.i = s.i + 1 ∧ s'.next ≤ 65535 ∧ Good m' s'.rem ∧ next t' = s'.next ∧ (∀ a, Tested a → get (mem t') a = m' a) ∧
      testLoop w iMax (fuel + 1) s g t = if (s.i : Int) = iMax then (.success, log, t') else
        ((testLoop w iMax fuel s' g' t').1, log ++ (testLoop w iMax fuel s' g' t').2.1, (testLoop w iMax fuel s' g' t').2.2) := by
  obtain ⟨pid, p, g', ws, txns, e1, e2, e3, e4, e5, e6, e7, e8, e9, e10, e11⟩ := prepare_ok hn hg g
  have hpid : pid ≤ 65535 := by omega
  obtain ⟨more, t1, a1, a2, a3, a4⟩ := hS.good.status t
  rw [ht] at a1 a3
  have A : sendCheck w t statusRequest (expectedStatus s.next) (some statusMask) = (none, some (statusHead 2000 5 s.next ++ more), t1) :=
    sendCheck_ok (by rw [statusRequest_eq]; exact a1) (by rw [expectedStatus_eq hn]; exact masked (statusHead_length _ _ _) a2 (head_bytes hn))
  obtain ⟨k1, k2⟩ := sim_txns hS.ram (txns.map Prod.snd) (by
    intro x hx
    simp only [List.mem_map] at hx
    obtain ⟨y, hy, rfl⟩ := hx
    exact e6 y hy) (mem t1) m (by rw [a4]; exact hm)
  have hans : answer ws txns tg (mem t1) = p.res := by rw [e7, answer, answer, k1]
  obtain ⟨t2, b1, b2, b3, b4⟩ := hS.good.execute t1 ws pid txns e4 e5 (by rw [a3]; exact e2) (by rw [← e3]; exact e8) (by rw [hans]; exact e9)
  rw [hans] at b1 b4
  rw [a3] at b2
  have B : sendCheck w t1 p.req p.res none = (none, some p.res, t2) := sendCheck_ok (by rw [e3]; exact b1) rfl
  obtain ⟨t3, c1, c2, c3⟩ := hS.good.again t2
  rw [b4] at c1
  have C : sendCheck w t2 (resendRequest pid) p.res none = (none, some p.res, t3) := sendCheck_ok (by rw [resendRequest_eq hpid]; exact c1) rfl
  obtain ⟨t4, d1, d2, d3⟩ := hS.ping t3
  refine ⟨⟨s.i + 1, newExpected pid s.next, p.rem⟩, _, g', t4, [(statusRequest, some (statusHead 2000 5 s.next ++ more)), (p.req, some p.res), (resendRequest pid, some p.res)],
    rfl, idAfter_le hn, e10, ?_, ?_, ?_⟩
  · rw [d2, c2, b2]; rfl
  · rw [d3, c3, b3]; exact k2
  · rw [testLoop, e1]
    simp only [A, e11, Bool.false_eq_true, if_false, B, C, d1, Bool.true_eq_false]

/-- **C77, good targets pass.** A target that does what it should (2000 bytes, 5 buffers) and is memory at the tested addresses passes the test, whatever the random
numbers, if the script is told the packet ID that it expects and a positive number of iterations. -/
theorem C77_accepts_partial {w : World τ} {tg : Target σ} {next : τ → Nat} {mem : τ → σ} {kept : τ → Nat × List Nat} {get : σ → W → W} (hS : Suitable w tg 2000 5 next mem kept get)
    {iterations : Nat} (hi : 1 ≤ iterations) {fuel : Nat} (hf : iterations ≤ fuel) (g : Gen) (t : τ) (ht : next t ≤ 65535) :
    ∃ log t', main w (next t) iterations fuel g t = some (.success, log, t') := by
  have key : ∀ (k fuel : Nat) (s : State) (m : W → W) (g : Gen) (t : τ), s.i + k = iterations → k + 1 ≤ fuel → s.next ≤ 65535 → Good m s.rem → next t = s.next →
      (∀ a, Tested a → get (mem t) a = m a) → ∃ log t', testLoop w iterations fuel s g t = (.success, log, t') := by
    intro k
    induction k with
    | zero =>
      intro fuel s m g t h1 h2 h3 h4 h5 h6
      obtain ⟨f, rfl⟩ : ∃ f, fuel = f + 1 := ⟨fuel - 1, by omega⟩
      obtain ⟨s', m', g', t', log, _, _, _, _, _, e⟩ := iterate hS (iMax := iterations) f h3 h4 g h5 h6
      rw [if_pos (by omega)] at e
      exact ⟨log, t', e⟩
    | succ k ih =>
      intro fuel s m g t h1 h2 h3 h4 h5 h6
      obtain ⟨f, rfl⟩ : ∃ f, fuel = f + 1 := ⟨fuel - 1, by omega⟩
      obtain ⟨s', m', g', t', log, i1, i2, i3, i4, i5, e⟩ := iterate hS (iMax := iterations) f h3 h4 g h5 h6
      rw [if_neg (by omega)] at e
      obtain ⟨log', t'', e'⟩ := ih f s' m' g' t' (by omega) (by omega) i2 i3 i4 i5
      rw [e'] at e
      exact ⟨_, _, e⟩
  obtain ⟨log, t', e⟩ := key (iterations - 1) fuel ⟨1, next t, []⟩ (get (mem t)) g t (by simp only; omega) (by omega) ht trivial rfl fun _ _ => rfl
  exact ⟨log, t', by rw [main, if_neg (by omega), e]⟩

/-- **C77 is violated without iterations**: told to make none (or a negative number), the script never ends with a good target. -/
theorem C77_violated_none {w : World τ} {tg : Target σ} {next : τ → Nat} {mem : τ → σ} {kept : τ → Nat × List Nat} {get : σ → W → W} (hS : Suitable w tg 2000 5 next mem kept get)
    {iterations : Int} (hi : iterations ≤ 0) (fuel : Nat) (g : Gen) (t : τ) (ht : next t ≤ 65535) :
    ∃ log t', main w (next t) iterations fuel g t = some (.running, log, t') := by
  have key : ∀ (fuel : Nat) (s : State) (m : W → W) (g : Gen) (t : τ), 1 ≤ s.i → s.next ≤ 65535 → Good m s.rem → next t = s.next →
      (∀ a, Tested a → get (mem t) a = m a) → ∃ log t', testLoop w iterations fuel s g t = (.running, log, t') := by
    intro fuel
    induction fuel with
    | zero => intro s m g t _ _ _ _ _; exact ⟨[], t, rfl⟩
    | succ f ih =>
      intro s m g t h1 h3 h4 h5 h6
      obtain ⟨s', m', g', t', log, i1, i2, i3, i4, i5, e⟩ := iterate hS (iMax := iterations) f h3 h4 g h5 h6
      rw [if_neg (by omega)] at e
      obtain ⟨log', t'', e'⟩ := ih s' m' g' t' (by omega) i2 i3 i4 i5
      rw [e'] at e
      exact ⟨_, _, e⟩
  obtain ⟨log, t', e⟩ := key fuel ⟨1, next t, []⟩ (get (mem t)) g t (Nat.le_refl _) ht trivial rfl fun _ _ => rfl
  exact ⟨log, t', by rw [main, if_neg (by omega), e]⟩

/-! ## The test comes to an end -/

theorem sendCheck_end {w : World τ} {t : τ} {req exp : Bytes} {mask : Option Bytes} {o : Outcome} (h : (sendCheck w t req exp mask).1 = some o) :
    o ≠ .running ∧ (o = .crash → ∃ a m, (sendCheck w t req exp mask).2.1 = some a ∧ mask = some m ∧ a.length ≠ m.length) := by
  simp only [sendCheck] at h ⊢
  split at h
  · cases h; exact ⟨by simp, by simp⟩
  · rename_i a ha
    split at h
    · rename_i hb
      cases h
      refine ⟨by simp, fun _ => ?_⟩
      cases mask with
      | none => cases hb
      | some m =>
        refine ⟨a, m, ha, rfl, fun hl => ?_⟩
        simp [binaryAnd, hl] at hb
    · split at h
      · cases h
      · cases h; exact ⟨by simp, by simp⟩

theorem once {w : World τ} {iMax : Int} (fuel : Nat) {m : W → W} {s : State} (hn : s.next ≤ 65535) (hg : Good m s.rem) (g : Gen) (t : τ) :
    (∃ o log t', testLoop w iMax (fuel + 1) s g t = (o, log, t') ∧ o ≠ .running ∧ (o = .crash → ∃ a, (statusAsk, some a) ∈ log ∧ a.length ≠ 64)) ∨
    ∃ s' m' g' t' log, s'.i = s.i + 1 ∧ s'.next ≤ 65535 ∧ Good m' s'.rem ∧ (s.i : Int) ≠ iMax ∧
      testLoop w iMax (fuel + 1) s g t = ((testLoop w iMax fuel s' g' t').1, log ++ (testLoop w iMax fuel s' g' t').2.1, (testLoop w iMax fuel s' g' t').2.2) := by
  obtain ⟨pid, p, g', ws, txns, e1, e2, e3, e4, e5, e6, e7, e8, e9, e10, e11⟩ := prepare_ok hn hg g
  rw [testLoop, e1]
  simp only [e11, Bool.false_eq_true, if_false]
  generalize hA : sendCheck w t statusRequest (expectedStatus s.next) (some statusMask) = A
  cases hA1 : A.1 with
  | some o =>
    obtain ⟨k1, k2⟩ := sendCheck_end (by rw [hA]; exact hA1)
    rw [hA] at k2
    refine Or.inl ⟨_, _, _, rfl, k1, fun ho => ?_⟩
    obtain ⟨a, m, q1, q2, q3⟩ := k2 ho
    cases q2
    exact ⟨a, by rw [q1, statusRequest_eq]; simp, q3⟩
  | none =>
    simp only [hA1]
    generalize hB : sendCheck w A.2.2 p.req p.res none = B
    cases hB1 : B.1 with
    | some o =>
      obtain ⟨k1, k2⟩ := sendCheck_end (by rw [hB]; exact hB1)
      refine Or.inl ⟨_, _, _, rfl, k1, fun ho => ?_⟩
      obtain ⟨a, m, q1, q2, q3⟩ := k2 ho
      cases q2
    | none =>
      simp only [hB1]
      generalize hC : sendCheck w B.2.2 (resendRequest pid) p.res none = C
      cases hC1 : C.1 with
      | some o =>
        obtain ⟨k1, k2⟩ := sendCheck_end (by rw [hC]; exact hC1)
        refine Or.inl ⟨_, _, _, rfl, k1, fun ho => ?_⟩
        obtain ⟨a, m, q1, q2, q3⟩ := k2 ho
        cases q2
      | none =>
        simp only [hC1]
        split
        · exact Or.inl ⟨_, _, _, rfl, by simp, by simp⟩
        · split
          · exact Or.inl ⟨_, _, _, rfl, by simp, by simp⟩
          · rename_i hi
            exact Or.inr ⟨⟨s.i + 1, newExpected pid s.next, p.rem⟩, _, _, _, _, rfl, idAfter_le hn, e10, hi, rfl⟩

/-- **C77, the end.** With a positive number of iterations the script comes to an end, whatever the target does, and without an exception other than the ones it reports
itself, unless a status reply does not have sixteen words. -/
theorem C77_ends_partial (w : World τ) {first : Nat} (hf : first ≤ 65535) {iterations : Nat} (hi : 1 ≤ iterations) {fuel : Nat} (hfu : iterations ≤ fuel) (g : Gen) (t : τ) :
    ∃ o log t', main w first iterations fuel g t = some (o, log, t') ∧ o ≠ .running ∧ (o = .crash → ∃ a, (statusAsk, some a) ∈ log ∧ a.length ≠ 64) := by
  have key : ∀ (k fuel : Nat) (s : State) (m : W → W) (g : Gen) (t : τ), s.i + k = iterations → k + 1 ≤ fuel → s.next ≤ 65535 → Good m s.rem →
      ∃ o log t', testLoop w iterations fuel s g t = (o, log, t') ∧ o ≠ .running ∧ (o = .crash → ∃ a, (statusAsk, some a) ∈ log ∧ a.length ≠ 64) := by
    intro k
    induction k with
    | zero =>
      intro fuel s m g t h1 h2 h3 h4
      obtain ⟨f, rfl⟩ : ∃ f, fuel = f + 1 := ⟨fuel - 1, by omega⟩
      rcases once f h3 h4 g t with h | ⟨s', m', g', t', log, _, _, _, hi, _⟩
      · exact h
      · exact absurd (by omega) hi
    | succ k ih =>
      intro fuel s m g t h1 h2 h3 h4
      obtain ⟨f, rfl⟩ : ∃ f, fuel = f + 1 := ⟨fuel - 1, by omega⟩
      rcases once f h3 h4 g t with h | ⟨s', m', g', t', log, i1, i2, i3, _, e⟩
      · exact h
      · obtain ⟨o, log', t'', e', o1, o2⟩ := ih f s' m' g' t' (by omega) (by omega) i2 i3
        rw [e'] at e
        refine ⟨_, _, _, e, o1, fun ho => ?_⟩
        obtain ⟨a, a1, a2⟩ := o2 ho
        exact ⟨a, by simp [a1], a2⟩
  obtain ⟨o, log, t', e, h⟩ := key (iterations - 1) fuel ⟨1, first, []⟩ (fun _ => 0) g t (by simp only; omega) (by omega) hf trivial
  exact ⟨o, log, t', by rw [main, if_neg (by omega), e], h⟩

/-! ## A good target -/

/-- A target: next packet ID, memory, last packet ID and reply. -/
structure Ref where
  next : Nat
  mem : W → W
  kept : Nat × List Nat

/-- A target with buffers of 2000 bytes that is nothing but memory. -/
def refWorld : World Ref where
  resp t p :=
    if p = statusAsk then (some (statusHead 2000 5 t.next ++ List.replicate 48 0), t)
    else if p = resendAsk t.kept.1 then (some t.kept.2, t)
    else match parsePacket .v2 (Dummy.unBytes true p) with
      | none => (none, t)
      | some (pid, txns) =>
        if pid = 0 ∨ pid = t.next then
          (some (answer (Dummy.unBytes true p) txns ram t.mem),
            ⟨idAfter t.next pid, (execTxns .v2 ram (txns.map Prod.snd) t.mem).2, (pid, answer (Dummy.unBytes true p) txns ram t.mem)⟩)
        else (none, t)
  ping t := (true, t)

theorem not_statusAsk {ws : List W} {q : Nat × List (Nat × Txn)} {big : Bool} (hp : parsePacket .v2 ws = some q) : octets big ws ≠ statusAsk := by
  intro hq
  have : ws = Dummy.unBytes big statusAsk := by rw [← hq, Dummy.octets_toBytes, Dummy.unBytes_toBytes]
  rw [this] at hp
  have hn : parsePacket .v2 (Dummy.unBytes big statusAsk) = none := by cases big <;> decide +kernel
  rw [hn] at hp
  cases hp

theorem refSuitable : Suitable refWorld ram 2000 5 Ref.next Ref.mem Ref.kept (fun m a => m a) where
  good := by
    refine ⟨fun t => ⟨List.replicate 48 0, t, by simp [refWorld], by simp, rfl, rfl⟩, ?_, ?_⟩
    · intro t ws pid txns h1 h2 h3 _ _
      have hu : Dummy.unBytes true (octets true ws) = ws := by rw [Dummy.octets_toBytes, Dummy.unBytes_toBytes]
      have n2 : octets true ws ≠ resendAsk t.kept.1 := by
        intro hq
        have hl : (octets true ws).length = 4 := by rw [hq]; rfl
        have e : ∀ l : List W, (octets true l).length = 4 * l.length := by
          intro l
          induction l with
          | nil => rfl
          | cons w l ih =>
            simp only [octets, List.flatMap_cons, List.length_append, List.length_cons] at ih ⊢
            rw [ih]; simp [Spec.Hub.be]; omega
        rw [e] at hl
        cases ws with
        | nil => simp at hl
        | cons w ws =>
          cases ws with
          | cons _ _ => simp only [List.length_cons] at hl; omega
          | nil =>
            simp only [parsePacket] at h1
            split at h1
            · simp [parseTxns] at h1
              exact h2 h1.2
            · cases h1
      refine ⟨⟨idAfter t.next pid, (execTxns .v2 ram (txns.map Prod.snd) t.mem).2, (pid, answer ws txns ram t.mem)⟩, ?_, rfl, rfl, rfl⟩
      simp only [refWorld, if_neg (not_statusAsk h1), if_neg n2, hu, h1, if_pos h3]
    · intro t
      refine ⟨t, ?_, rfl, rfl⟩
      have : resendAsk t.kept.1 ≠ statusAsk := by simp [resendAsk, statusAsk]
      simp only [refWorld, if_neg this, if_true]
  ram := ⟨fun _ _ _ => ⟨rfl, fun _ _ => rfl⟩, fun _ _ _ _ _ _ => rfl⟩
  ping t := ⟨t, rfl, rfl, rfl⟩

/-- It passes a test of a thousand iterations, and has then passed it. -/
example (g : Gen) : ∃ log t', main refWorld 65000 1000 1000 g ⟨65000, fun _ => 7, (0, [])⟩ = some (.success, log, t') :=
  C77_accepts_partial refSuitable (iterations := 1000) (by decide) (Nat.le_refl _) g ⟨65000, fun _ => 7, (0, [])⟩ (by decide)

/-- It never gets rid of the script that is to make no iteration. -/
example (g : Gen) (fuel : Nat) : ∃ log t', main refWorld 65000 0 fuel g ⟨65000, fun _ => 7, (0, [])⟩ = some (.running, log, t') :=
  C77_violated_none refSuitable (by decide) fuel g ⟨65000, fun _ => 7, (0, [])⟩ (by decide)

/-! ## Good targets that do not pass -/

/-- Another size, another number of buffers or another packet ID than the script says: the first answer is reported as a bad one. -/
theorem C77_rejects {w : World τ} {first : Nat} (hf : first ≤ 65535) {mtu buffers next : Nat} (hm : mtu < 2 ^ 32) (hbu : buffers < 2 ^ 32) (hn : next ≤ 65535) {t t' : τ} {more : List Nat}
    (hr : w.resp t statusAsk = (some (statusHead mtu buffers next ++ more), t')) (hl : more.length = 48) (hne : (mtu, buffers, next) ≠ (2000, 5, first))
    (iterations : Int) (fuel : Nat) (g : Gen) :
    main w first iterations (fuel + 1) g t = some (.bad statusAsk (expectedStatus first) (statusHead mtu buffers next ++ List.replicate 48 0),
      [(statusAsk, some (statusHead mtu buffers next ++ more))], t') := by
  obtain ⟨pid, p, g', ws, txns, e1, _⟩ := prepare_ok (m := fun _ => 0) (s := ⟨1, first, []⟩) hf trivial g
  have hbe : ∀ x, x < 2 ^ 32 → Spec.Hub.be 4 x = [x / 2 ^ 24, x / 2 ^ 16 % 256, x / 2 ^ 8 % 256, x % 256] := by
    intro x hx
    simp only [Spec.Hub.be, List.range, List.range.loop, List.reverse_cons, List.reverse_nil, List.nil_append, List.cons_append, List.map_cons, List.map_nil, List.cons.injEq, and_true]
    refine ⟨?_, trivial, trivial, ?_⟩
    · show x / 16777216 % 256 = x / 16777216
      omega
    · rw [Nat.pow_zero, Nat.div_one]
  have hby : ∀ x ∈ statusHead mtu buffers next, x < 256 := by
    rw [statusHead, hbe mtu hm, hbe buffers hbu]
    intro x hx
    simp only [List.cons_append, List.nil_append, List.mem_cons, List.not_mem_nil, or_false] at hx
    omega
  have hdif : statusHead mtu buffers next ++ List.replicate 48 0 ≠ expectedStatus first := by
    rw [expectedStatus_eq hf]
    intro h
    have := List.append_inj_left h (by simp [statusHead_length])
    rw [statusHead, statusHead, hbe mtu hm, hbe buffers hbu, hbe 2000 (by decide), hbe 5 (by decide)] at this
    simp only [List.cons_append, List.nil_append, List.cons.injEq, and_true, true_and] at this
    apply hne
    simp only [Prod.mk.injEq]
    omega
  have hA : sendCheck w t statusAsk (expectedStatus first) (some statusMask) =
      (some (.bad statusAsk (expectedStatus first) (statusHead mtu buffers next ++ List.replicate 48 0)), some (statusHead mtu buffers next ++ more), t') := by
    simp only [sendCheck, hr, masked (statusHead_length _ _ _) hl hby, if_neg hdif]
  rw [main, if_neg (by omega), testLoop, e1]
  simp only [statusRequest_eq, hA]

/-- The dummy hardware of uHAL as the target; `ping` succeeds. -/
def dummyWorld : World Dummy.DH where
  resp d p := match d.udp .v2 p with
    | .ok d a => (a, d)
    | _ => (none, d)
  ping d := (true, d)

/-- **C77 is violated for the repository's own target.** The dummy hardware, which does what it should (`C71`), is reported as faulty at the first status request, since its
buffers have 400000 bytes, not 2000. The exit status is 0. -/
theorem C77_violated_dummy (pid : BitVec 16) (big : Bool) {first : Nat} (hf : first ≤ 65535) (iterations : Int) (fuel : Nat) (g : Gen) :
    ∃ exp got log d', main dummyWorld first iterations (fuel + 1) g (Dummy.DH.init pid big) = some (.bad statusAsk exp got, log, d') ∧
      exitStatus (some (.bad statusAsk exp got)) = some 0 := by
  obtain ⟨d, as, s, h1, h2, _⟩ := Dummy.C71_udp_partial pid big [statusAsk] (by
    intro p hp
    simp only [List.mem_singleton] at hp
    subst hp
    exact .status _)
  cases h2 with
  | cons r rest =>
    cases rest
    rename_i s' a
    have hd : dummyWorld.resp (Dummy.DH.init pid big) statusAsk = (a, d) := by
      simp only [Dummy.DH.udps] at h1
      simp only [dummyWorld]
      split at h1
      · rename_i d' r' hr
        rw [hr]
        simp only [Option.map_some, Option.some.injEq, Prod.mk.injEq, List.cons.injEq, and_true] at h1
        rw [h1.1, h1.2]
      · cases h1
    have hs : ∃ more : List Nat, a = some (statusHead 400000 5 1 ++ more) ∧ more.length = 48 := by
      clear hd h1
      generalize hq : statusAsk = q at r
      cases r with
      | execute k1 _ _ _ => exact absurd hq.symm (not_statusAsk k1)
      | ignore k1 _ _ => exact absurd hq.symm (not_statusAsk k1)
      | status hm => exact ⟨_, rfl, hm⟩
      | again => exact absurd hq (by simp [statusAsk])
    obtain ⟨more, rfl, hm⟩ := hs
    exact ⟨_, _, _, _, C77_rejects hf (mtu := 400000) (buffers := 5) (next := 1) (by decide) (by decide) (by decide) hd hm (by simp) iterations fuel g, rfl⟩

/-- A status reply of another size is not reported as a bad one but ends the script with an error (exit status 127). -/
theorem C77_violated_size {w : World τ} {first : Nat} (hf : first ≤ 65535) {t t' : τ} {a : List Nat} (hr : w.resp t statusAsk = (some a, t')) (hl : a.length ≠ 64)
    (iterations : Int) (fuel : Nat) (g : Gen) :
    main w first iterations (fuel + 1) g t = some (.crash, [(statusAsk, some a)], t') ∧ exitStatus (some .crash) = some 127 := by
  obtain ⟨pid, p, g', ws, txns, e1, _⟩ := prepare_ok (m := fun _ => 0) (s := ⟨1, first, []⟩) hf trivial g
  have hA : sendCheck w t statusAsk (expectedStatus first) (some statusMask) = (some .crash, some a, t') := by
    have : ¬ a.length = statusMask.length := hl
    simp only [sendCheck, hr, binaryAnd, if_neg this]
  refine ⟨?_, rfl⟩
  rw [main, if_neg (by omega), testLoop, e1]
  simp only [statusRequest_eq, hA]

/-- A target that answers every datagram with one word. -/
example (g : Gen) : main (⟨fun t _ => (some [0x20, 0, 0, 0xf1], t), fun t => (true, t)⟩ : World Unit) 1 100 100 g () = some (.crash, [(statusAsk, some [0x20, 0, 0, 0xf1])], ()) :=
  (C77_violated_size (by decide) rfl (by decide) 100 99 g).1

/-- A target that expects packet 7 when the script is told that it expects packet 6. -/
example (g : Gen) : ∃ o log t', main refWorld 6 100 100 g ⟨7, fun _ => 0, (0, [])⟩ = some (o, log, t') ∧ o ≠ .success :=
  ⟨_, _, _, C77_rejects (w := refWorld) (first := 6) (mtu := 2000) (buffers := 5) (next := 7) (t := ⟨7, fun _ => 0, (0, [])⟩) (by decide) (by decide) (by decide) (by decide) rfl
    (by decide) (by decide) 100 99 g, by simp⟩

end Verif.TgtTest
