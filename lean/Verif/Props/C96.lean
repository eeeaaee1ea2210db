import Verif.Model.Bandwidth
import Verif.Spec.Txn
import Verif.Spec.Seq
import Verif.Spec.Soak
import Verif.Lemmas.Seq
/-!
# C96: the bandwidth test measures what it says

Its requests are IPbus 1.3 packets for the number of words that it reports, and the writes leave the numbers 0, 1, 2, … in memory; it ends, with `ok` only if at most nine replies are missing.

Where it goes wrong: missing replies count as data, so that without any target a test of at most nine turns is a success; replies are not looked at.
-/

set_option autoImplicit false
set_option linter.unusedSimpArgs false

namespace Verif.Spec
open Verif

/-- The transactions of a packet of IPbus 1.3. -/
def HoldsTxns (ws : List W) (txns : List Txn) : Prop := ∃ pid l, parsePacket .v1 ws = some (pid, l) ∧ l.map Prod.snd = txns

/-- `lo, lo + 1, …`, `n` numbers. -/
def countUp (lo n : Nat) : List W := (List.range' lo n).map (BitVec.ofNat 32)

/-- Words that transactions move. -/
def wordsMoved : List Txn → Nat
  | [] => 0
  | .read _ _ n :: l => n + wordsMoved l
  | .write _ _ ds :: l => ds.length + wordsMoved l
  | _ :: l => wordsMoved l

end Verif.Spec

namespace Verif
open Bandwidth Spec

theorem genN_eq (n : Nat) : ∀ (bin : List W) (cur : Nat), genN n bin cur = bin ++ countUp cur n := by
  induction n with
  | zero => intro bin cur; simp [genN, countUp]
  | succ n ih => intro bin cur; rw [genN, ih]; simp [countUp, List.range'_succ]

theorem gen_eq (bin : List W) (lo n : Nat) : gen bin lo (lo + n) = bin ++ countUp lo n := by rw [gen, Nat.add_sub_cancel_left, genN_eq]

/-- The writes of the test with large packets. -/
def jumboWrites : List Txn :=
  [.bot, .write true 0x1000#32 (countUp 0 500), .write true 0x11F4#32 (countUp 500 500), .write true 0x13E8#32 (countUp 1000 500), .write true 0x15DC#32 (countUp 1500 500),
    .write true 0x17D0#32 (countUp 2000 200)]

theorem jumboTx_eq : jumboTx = [bot, 0x1003F420#32, 0x00001000#32] ++ countUp 0 500 ++ [0x1005F420#32, 0x000011F4#32] ++ countUp 500 500 ++ [0x1007F420#32, 0x000013E8#32] ++ countUp 1000 500 ++
    [0x1009F420#32, 0x000015DC#32] ++ countUp 1500 500 ++ [0x100AC820#32, 0x000017D0#32] ++ countUp 2000 200 := by
  unfold jumboTx
  rw [gen_eq _ 0 500, gen_eq _ 500 500, gen_eq _ 1000 500, gen_eq _ 1500 500, gen_eq _ 2000 200]

theorem jumboTxNi_eq : jumboTxNi = [bot, 0x1003F448#32, 0x00000001#32] ++ countUp 0 500 ++ [0x1005F448#32, 0x00000001#32] ++ countUp 500 500 ++ [0x1007F448#32, 0x00000001#32] ++ countUp 1000 500 ++
    [0x1009F448#32, 0x00000001#32] ++ countUp 1500 500 ++ [0x100AC848#32, 0x00000001#32] ++ countUp 2000 200 := by
  unfold jumboTxNi
  rw [gen_eq _ 0 500, gen_eq _ 500 500, gen_eq _ 1000 500, gen_eq _ 1500 500, gen_eq _ 2000 200]

/-- The transactions of the six requests. -/
theorem C96_packets :
    HoldsTxns tx [.bot, .write true 0x1000#32 (countUp 0 350)] ∧
    HoldsTxns rx [.bot, .bot, .bot, .bot, .bot, .read false 0x1000#32 350] ∧
    HoldsTxns jumboTx jumboWrites ∧
    HoldsTxns jumboTxNi [.bot, .write false 1#32 (countUp 0 500), .write false 1#32 (countUp 500 500), .write false 1#32 (countUp 1000 500), .write false 1#32 (countUp 1500 500), .write false 1#32 (countUp 2000 200)] ∧
    HoldsTxns jumboRx [.bot, .read true 0x1000#32 500, .read true 0x11F4#32 500, .read true 0x13E8#32 500, .read true 0x15DC#32 500, .read true 0x17D0#32 200] ∧
    HoldsTxns jumboRxNi [.bot, .read false 1#32 500, .read false 1#32 500, .read false 1#32 500, .read false 1#32 500, .read false 1#32 200] := by
  refine ⟨⟨0, [(0, .bot), (1, .write true 0x1000#32 (countUp 0 350))], ?_, rfl⟩,
    ⟨0, [(0, .bot), (0, .bot), (0, .bot), (0, .bot), (0, .bot), (1, .read false 0x1000#32 350)], by decide +kernel, rfl⟩,
    ⟨0, List.zip [0, 1, 2, 3, 4, 5] jumboWrites, ?_, rfl⟩,
    ⟨0, [(0, .bot), (1, .write false 1#32 (countUp 0 500)), (2, .write false 1#32 (countUp 500 500)), (3, .write false 1#32 (countUp 1000 500)), (4, .write false 1#32 (countUp 1500 500)), (5, .write false 1#32 (countUp 2000 200))], ?_, rfl⟩,
    ⟨0, [(0, .bot), (1, .read true 0x1000#32 500), (2, .read true 0x11F4#32 500), (3, .read true 0x13E8#32 500), (4, .read true 0x15DC#32 500), (5, .read true 0x17D0#32 200)], ?_, rfl⟩,
    ⟨0, [(0, .bot), (1, .read false 1#32 500), (2, .read false 1#32 500), (3, .read false 1#32 500), (4, .read false 1#32 500), (5, .read false 1#32 200)], ?_, rfl⟩⟩
  · unfold tx
    rw [gen_eq _ 0 350]
    decide +kernel
  · rw [jumboTx_eq]; decide +kernel
  · rw [jumboTxNi_eq]; decide +kernel
  · decide +kernel
  · decide +kernel

/-- The words that the requests move are those from which the rates are computed (`payload`): 350 and 2200. -/
theorem C96_depth : ∀ l, (HoldsTxns tx l ∨ HoldsTxns rx l → wordsMoved l = 350) ∧ (HoldsTxns jumboTx l ∨ HoldsTxns jumboTxNi l ∨ HoldsTxns jumboRx l ∨ HoldsTxns jumboRxNi l → wordsMoved l = 2200) := by
  obtain ⟨h1, h2, h3, h4, h5, h6⟩ := C96_packets
  have uniq : ∀ {ws a b}, HoldsTxns ws a → HoldsTxns ws b → a = b := by
    rintro ws a b ⟨p, l, e, rfl⟩ ⟨p', l', e', rfl⟩
    rw [e] at e'
    cases e'
    rfl
  intro l
  constructor
  · rintro (h | h)
    · rw [uniq h h1]; decide +kernel
    · rw [uniq h h2]; decide +kernel
  · rintro (h | h | h | h)
    · rw [uniq h h3]; decide +kernel
    · rw [uniq h h4]; decide +kernel
    · rw [uniq h h5]; decide +kernel
    · rw [uniq h h6]; decide +kernel

/-! ### What is in memory afterwards -/

theorem bw_addrs (a : W) (n : Nat) : addrs true a (n + 1) = a :: addrs true (a + 1#32) n := by
  unfold addrs
  rw [List.range_succ_eq_map, List.map_cons, List.map_map]
  congr 1
  · simp
  · refine List.map_congr_left fun i _ => ?_
    simp only [if_true, Function.comp]
    rw [Nat.succ_eq_add_one, Nat.add_comm, BitVec.ofNat_add, ← BitVec.add_assoc]

/-- A block of writes to memory. -/
theorem block_ram (ds : List W) : ∀ (a : W) (m : W → W) (b : W), ds.length ≤ 2 ^ 32 →
    (execAccs .v1 ram (Txn.write true a ds).accs m).2 b = (ds[(b - a).toNat]?).getD (m b) := by
  induction ds with
  | nil => intro a m b _; rfl
  | cons d ds ih =>
    intro a m b h
    rw [List.length_cons] at h
    have e : (Txn.write true a (d :: ds)).accs = .wr a d :: (Txn.write true (a + 1#32) ds).accs := by
      simp only [Txn.accs, List.length_cons, bw_addrs, List.zipWith_cons_cons]
    rw [e]
    simp only [execAccs, Acc.exec]
    rw [ih _ _ _ (by omega)]
    by_cases hb : b = a
    · subst hb
      have h0 : (b - b).toNat = 0 := by simp
      have h1 : (b - (b + 1#32)).toNat = 2 ^ 32 - 1 := by
        rw [show b - (b + 1#32) = (0xFFFFFFFF#32) from by bv_omega]
        rfl
      rw [h0, h1, List.getElem?_eq_none (by omega)]
      simp [ram]
    · have h1 : (b - a).toNat = (b - (a + 1#32)).toNat + 1 := by
        have : b.toNat ≠ a.toNat := fun e => hb (BitVec.eq_of_toNat_eq e)
        bv_omega
      rw [h1, List.getElem?_cons_succ]
      simp [ram, hb]

theorem countUp_get (lo n i : Nat) (x : W) : ((countUp lo n)[i]?).getD x = if i < n then BitVec.ofNat 32 (lo + i) else x := by
  unfold countUp
  rw [List.getElem?_map]
  by_cases h : i < n
  · rw [if_pos h, List.getElem?_eq_getElem (by simpa using h)]
    simp
  · rw [if_neg h, List.getElem?_eq_none (by simpa using h)]
    rfl

/-- Memory after the request of `runTxTest`: the word `i` of the 350 from 0x1000 on is `i`, and the others are as before. -/
theorem C96_tx (m : W → W) (b : W) : ∀ l, HoldsTxns tx l → (execTxns .v1 ram l m).2 b = if (b - 0x1000#32).toNat < 350 then b - 0x1000#32 else m b := by
  rintro l ⟨p, x, h1, rfl⟩
  obtain ⟨p', x', h2, h3⟩ := C96_packets.1
  rw [h1] at h2
  cases h2
  rw [h3]
  have hb : Txn.accs .bot = [] := rfl
  simp only [execTxns, hb, execAccs]
  rw [block_ram _ _ _ _ (by simp [countUp]), countUp_get, Nat.zero_add, BitVec.ofNat_toNat, BitVec.setWidth_eq]

theorem bw_part (k j n : Nat) (hk : k < 2 ^ 32) (hj : j + n ≤ 2 ^ 32) (x : W) :
    (if (if j ≤ k then k - j else k + 2 ^ 32 - j) < n then BitVec.ofNat 32 (j + (if j ≤ k then k - j else k + 2 ^ 32 - j)) else x) = if j ≤ k ∧ k < j + n then BitVec.ofNat 32 k else x := by
  by_cases h : j ≤ k
  · simp only [if_pos h]
    by_cases h2 : k - j < n
    · rw [if_pos h2, if_pos ⟨h, by omega⟩, Nat.add_sub_cancel' h]
    · rw [if_neg h2, if_neg (by omega)]
  · simp only [if_neg h]
    rw [if_neg (by omega), if_neg (by omega)]

/-- Memory after the request of `runJumboTxTest`: 2200 words. -/
theorem C96_jumbo (m : W → W) (b : W) : ∀ l, HoldsTxns jumboTx l → (execTxns .v1 ram l m).2 b = if (b - 0x1000#32).toNat < 2200 then b - 0x1000#32 else m b := by
  rintro l ⟨p, x, h1, rfl⟩
  obtain ⟨p', x', h2, h3⟩ := C96_packets.2.2.1
  rw [h1] at h2
  cases h2
  rw [h3]
  have hb : Txn.accs .bot = [] := rfl
  simp only [jumboWrites, execTxns, hb, execAccs]
  rw [block_ram _ _ _ _ (by simp [countUp]), block_ram _ _ _ _ (by simp [countUp]), block_ram _ _ _ _ (by simp [countUp]), block_ram _ _ _ _ (by simp [countUp]), block_ram _ _ _ _ (by simp [countUp])]
  simp only [countUp_get]
  have hsub : ∀ k : Nat, k < 2200 → (b - (0x1000#32 + BitVec.ofNat 32 k)).toNat = if k ≤ (b - 0x1000#32).toNat then (b - 0x1000#32).toNat - k else (b - 0x1000#32).toNat + 2 ^ 32 - k := by
    intro k hk
    simp only [BitVec.toNat_sub, BitVec.toNat_add, BitVec.toNat_ofNat]
    have := b.isLt
    split <;> omega
  have s1 := hsub 500 (by omega)
  have s2 := hsub 1000 (by omega)
  have s3 := hsub 1500 (by omega)
  have s4 := hsub 2000 (by omega)
  have c1 : 0x1000#32 + BitVec.ofNat 32 500 = 0x11F4#32 := by decide
  have c2 : 0x1000#32 + BitVec.ofNat 32 1000 = 0x13E8#32 := by decide
  have c3 : 0x1000#32 + BitVec.ofNat 32 1500 = 0x15DC#32 := by decide
  have c4 : 0x1000#32 + BitVec.ofNat 32 2000 = 0x17D0#32 := by decide
  rw [c1] at s1
  rw [c2] at s2
  rw [c3] at s3
  rw [c4] at s4
  rw [s1, s2, s3, s4]
  have hlt := (b - 0x1000#32).isLt
  have hof : b - 0x1000#32 = BitVec.ofNat 32 (b - 0x1000#32).toNat := by rw [BitVec.ofNat_toNat, BitVec.setWidth_eq]
  generalize hk : (b - 0x1000#32).toNat = k at *
  rw [hof, bw_part k 2000 200 hlt (by omega), bw_part k 1500 500 hlt (by omega), bw_part k 1000 500 hlt (by omega), bw_part k 500 500 hlt (by omega), Nat.zero_add]
  clear s1 s2 s3 s4 hsub h1 h3 hof
  generalize BitVec.ofNat 32 k = w
  by_cases k < 500 <;> by_cases k < 1000 <;> by_cases k < 1500 <;> by_cases k < 2000 <;> by_cases k < 2200 <;> grind

/-! ### The loop -/

/-- The counters of the loop. -/
theorem bw_loop (left : Nat) : ∀ (errs : Nat) (arr : List Nat) (s : Bandwidth.St), errs ≤ 10 →
    (∀ s', loop left errs arr s = .ok s' → s'.sent = s.sent + left ∧ s'.got ≤ s.got + left ∧ s.got + left + errs < s'.got + 10) ∧
    (∀ s', loop left errs arr s = .error s' → s'.sent ≤ s.sent + left ∧ s'.sent + s.got + errs = s.sent + s'.got + 10) := by
  induction left with
  | zero =>
    intro errs arr s h
    unfold loop
    by_cases he : errs < 10
    · rw [if_pos he]
      refine ⟨?_, by intro s' h; cases h⟩
      intro s' h; cases h; omega
    · rw [if_neg he]
      refine ⟨fun s' h => (by cases h), ?_⟩
      intro s' h; cases h; omega
  | succ left ih =>
    intro errs arr s h
    unfold loop
    by_cases he : errs < 10
    · rw [if_pos he]
      cases hb : s.box + arr.headD 0 with
      | zero =>
        obtain ⟨h1, h2⟩ := ih (errs + 1) arr.tail { box := 0, sent := s.sent + 1, got := s.got } (by omega)
        refine ⟨fun s' e => ?_, fun s' e => ?_⟩
        · have := h1 s' e; simp only at this; omega
        · have := h2 s' e; simp only at this; omega
      | succ k =>
        obtain ⟨h1, h2⟩ := ih errs arr.tail { box := k, sent := s.sent + 1, got := s.got + 1 } h
        refine ⟨fun s' e => ?_, fun s' e => ?_⟩
        · have := h1 s' e; simp only at this; omega
        · have := h2 s' e; simp only at this; omega
    · rw [if_neg he]
      refine ⟨fun s' h => (by cases h), ?_⟩
      intro s' h; cases h; omega

/-- `ok`: all requests were sent, and at most nine replies are missing. `error`: exactly ten are missing. -/
theorem C96_result_partial (n : Nat) (arr : List Nat) :
    (∀ s, run n arr = .ok s → s.sent = n ∧ s.got ≤ n ∧ n < s.got + 10) ∧ (∀ s, run n arr = .error s → s.sent ≤ n ∧ s.sent = s.got + 10) := by
  obtain ⟨h1, h2⟩ := bw_loop n 0 arr {} (by omega)
  exact ⟨fun s e => by have := h1 s e; simp only at this; omega, fun s e => by have := h2 s e; simp only at this; omega⟩

/-- If a reply arrives in each turn, the result is `ok` and the words counted are those of the replies taken. -/
theorem C96_all (n depth : Nat) (arr : List Nat) (h : ∀ i, i < n → ∃ k, arr[i]? = some (k + 1)) : ∃ s, run n arr = .ok s ∧ s.sent = n ∧ s.got = n ∧ payload n depth = s.got * depth := by
  have key : ∀ (k : Nat) (arr : List Nat) (s : Bandwidth.St), (∀ i, i < k → ∃ x, arr[i]? = some (x + 1)) → ∃ s', loop k 0 arr s = .ok s' ∧ s'.sent = s.sent + k ∧ s'.got = s.got + k := by
    intro k
    induction k with
    | zero => intro arr s _; exact ⟨s, rfl, rfl, rfl⟩
    | succ k ih =>
      intro arr s h
      cases arr with
      | nil => obtain ⟨x, hx⟩ := h 0 (by omega); cases hx
      | cons a arr =>
        obtain ⟨x, hx⟩ := h 0 (by omega)
        simp only [List.getElem?_cons_zero, Option.some.injEq] at hx
        subst hx
        obtain ⟨s', h1, h2, h3⟩ := ih arr { box := s.box + x, sent := s.sent + 1, got := s.got + 1 } (fun i hi => by simpa using h (i + 1) (by omega))
        simp only at h2 h3
        refine ⟨s', ?_, by omega, by omega⟩
        unfold loop
        rw [if_pos (by omega)]
        exact h1
  obtain ⟨s, h1, h2, h3⟩ := key n arr {} h
  exact ⟨s, h1, by simpa using h2, by simpa using h3, by rw [payload, h3]; simp⟩

/-- The hypotheses are met. -/
example : run 3 [1, 0, 2] = .ok ⟨1, 3, 2⟩ ∧ run 12 [1] = .error ⟨0, 11, 1⟩ := by decide +kernel

/-! ### Where the test goes wrong -/

/-- Without a single reply a test of nine turns ends with `ok`, and 9 · 2200 words are reported as transferred. -/
theorem C96_violated_none : run 9 [] = .ok ⟨0, 9, 0⟩ ∧ payload 9 2200 = 19800 := by decide +kernel

/-- A reply that comes too late is taken for that to the next request, and the last reply is not waited for. -/
theorem C96_violated_late : run 3 [0, 1, 1, 1] = .ok ⟨0, 3, 2⟩ := by decide +kernel

end Verif
