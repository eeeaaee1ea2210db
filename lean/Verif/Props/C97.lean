import Verif.Model.Latency
import Verif.Spec.Seq
/-!
# C97: the C++ bandwidth tests move the data that they report

Where they go wrong: with 2^32 turns or more (the option has 64 bits) the loop does not end; the product can overflow.
-/

set_option autoImplicit false
set_option linter.unusedSimpArgs false

namespace Verif.Spec
open Verif

/-- The calls on one of the clients. -/
def callsOn (k : Nat) (l : List (Nat × Op)) : List Op := l.filterMap fun e => if e.1 = k then some e.2 else none

/-- The word accesses of a program. -/
def accsOf (v : Ver) (l : List Op) : List Acc := l.flatMap fun o => (opAccs v o).getD []

/-- The calls `l` on `clients` clients: on each the accesses `as`, all dispatched in the end; none on others. -/
structure Moves (v : Ver) (clients : Nat) (as : List Acc) (l : List (Nat × Op)) : Prop where
  accs : ∀ k, k < clients → accsOf v (callsOn k l) = as
  done : ∀ k, k < clients → callsOn k l = [] ∨ (callsOn k l).getLast? = some .dispatch
  others : ∀ k, clients ≤ k → callsOn k l = []

end Verif.Spec

namespace Verif
open Latency Spec

theorem callsOn_append (k : Nat) (a b : List (Nat × Op)) : callsOn k (a ++ b) = callsOn k a ++ callsOn k b := by simp [callsOn]

theorem callsOn_all (k n : Nat) (o : Op) : callsOn k ((List.range n).map fun j => (j, o)) = if k < n then [o] else [] := by
  unfold callsOn
  induction n with
  | zero => simp
  | succ n ih =>
    rw [List.range_succ, List.map_append, List.filterMap_append, ih]
    by_cases h : k < n
    · rw [if_pos h, if_pos (by omega)]
      simp [show n ≠ k by omega]
    · rw [if_neg h]
      by_cases h2 : n = k
      · simp [h2]
      · rw [if_neg (by omega)]
        simp [h2]

/-- The calls on a client in one turn. -/
def turnOn (each : Bool) (o : Op) : List Op := o :: if each then [.dispatch] else []

theorem callsOn_turn (k clients : Nat) (each : Bool) (o : Op) : callsOn k (turn clients each o) = if k < clients then turnOn each o else [] := by
  unfold turn turnOn
  rw [callsOn_append, callsOn_all]
  cases each
  · by_cases h : k < clients <;> simp [h, callsOn]
  · simp only [if_true]
    rw [callsOn_all]
    by_cases h : k < clients <;> simp [h]

/-- The loop ends after the turns that are left. -/
theorem lat_loop (clients : Nat) (each : Bool) (o : Op) (n : Nat) (hn : n < 2 ^ 32) : ∀ (d : Nat) (i : W) (fuel : Nat), i.toNat + d = n → d ≤ fuel →
    loop clients each o n fuel i = some (List.replicate d (turn clients each o)).flatten := by
  intro d
  induction d with
  | zero =>
    intro i fuel h _
    unfold loop
    rw [if_neg (by omega)]
    rfl
  | succ d ih =>
    intro i fuel h hf
    cases fuel with
    | zero => omega
    | succ fuel =>
      have hi : (i + 1#32).toNat = i.toNat + 1 := by
        rw [BitVec.toNat_add]
        simp only [BitVec.toNat_ofNat]
        omega
      unfold loop
      rw [if_pos (by omega)]
      simp only
      rw [ih (i + 1#32) fuel (by omega) (by omega)]
      simp [List.replicate_succ]

theorem callsOn_turns (k clients : Nat) (each : Bool) (o : Op) (d : Nat) : callsOn k (List.replicate d (turn clients each o)).flatten = if k < clients then (List.replicate d (turnOn each o)).flatten else [] := by
  induction d with
  | zero => simp [callsOn]
  | succ d ih =>
    rw [List.replicate_succ, List.flatten_cons, callsOn_append, ih, callsOn_turn]
    by_cases h : k < clients <;> simp [h, List.replicate_succ]

theorem accsOf_turns (v : Ver) (each : Bool) (o : Op) (as : List Acc) (ho : opAccs v o = some as) (d : Nat) :
    accsOf v (List.replicate d (turnOn each o)).flatten = (List.replicate d as).flatten := by
  have ht : accsOf v (turnOn each o) = as := by
    have hd : opAccs v .dispatch = some [] := rfl
    cases each <;> simp [turnOn, accsOf, ho, hd]
  induction d with
  | zero => rfl
  | succ d ih =>
    rw [List.replicate_succ, List.flatten_cons, List.replicate_succ, List.flatten_cons, ← ih, ← ht]
    simp [accsOf]

theorem lat_moves (v : Ver) (clients : Nat) (each : Bool) (o : Op) (as : List Acc) (ho : opAccs v o = some as) (n fuel : Nat) (hn : n < 2 ^ 32) (hf : n ≤ fuel) :
    ∃ l, Latency.measure clients each o n fuel = some l ∧ Moves v clients (List.replicate n as).flatten l := by
  have h := lat_loop clients each o n hn n 0#32 fuel (by simp) hf
  refine ⟨_, by unfold Latency.measure; rw [h]; rfl, ?_⟩
  have hc : ∀ k, callsOn k ((List.replicate n (turn clients each o)).flatten ++ if each then [] else (List.range clients).map (fun k => (k, Op.dispatch))) =
      if k < clients then (List.replicate n (turnOn each o)).flatten ++ (if each then [] else [.dispatch]) else [] := by
    intro k
    rw [callsOn_append, callsOn_turns]
    cases each
    · simp only [Bool.false_eq_true, if_false]
      rw [callsOn_all]
      by_cases hk : k < clients <;> simp [hk]
    · by_cases hk : k < clients <;> simp [hk, callsOn]
  refine ⟨fun k hk => ?_, fun k hk => ?_, fun k hk => ?_⟩
  · rw [hc, if_pos hk]
    have := accsOf_turns v each o as ho n
    unfold accsOf at this ⊢
    rw [List.flatMap_append, this]
    cases each <;> simp [opAccs]
  · rw [hc, if_pos hk]
    cases each with
    | false => exact .inr (by simp)
    | true =>
      cases n with
      | zero => exact .inl (by simp)
      | succ n =>
        right
        simp only [if_true, List.append_nil]
        rw [List.replicate_succ', List.flatten_append]
        simp [turnOn]
  · rw [hc, if_neg (by omega)]

theorem replicate_blocks {α : Type} (n d : Nat) (a : α) : (List.replicate n (List.replicate d a)).flatten = List.replicate (n * d) a := by
  induction n with
  | zero => simp
  | succ n ih => rw [List.replicate_succ, List.flatten_cons, ih, Nat.succ_mul, Nat.add_comm, List.replicate_append_replicate]

/-- The read test: each client reads `n · depth` words from the address, all dispatched; together, that is what is reported. `partial`: fewer than 2^32 turns, and a product below 2^64. -/
theorem C97_read_partial (v : Ver) (clients : Nat) (each : Bool) (base depth : W) (n fuel : Nat) (hn : n < 2 ^ 32) (hf : n ≤ fuel) :
    ∃ l, Latency.measure clients each (readCall base depth) n fuel = some l ∧ Moves v clients (List.replicate (n * depth.toNat) (.rd base)) l ∧
      (clients * n * depth.toNat < 2 ^ 64 → payload clients n depth = clients * (List.replicate (n * depth.toNat) (Acc.rd base)).length) := by
  obtain ⟨l, h1, h2⟩ := lat_moves v clients each (readCall base depth) (List.replicate depth.toNat (.rd base)) (by
    simp [readCall, opAccs, addrs, Function.comp_def, List.map_const']) n fuel hn hf
  refine ⟨l, h1, by rw [replicate_blocks] at h2; exact h2, fun h => ?_⟩
  rw [payload, Nat.mod_eq_of_lt h, List.length_replicate, Nat.mul_assoc]

/-- The write test, in the same way. -/
theorem C97_write_partial (v : Ver) (clients : Nat) (each : Bool) (base depth : W) (n fuel : Nat) (hn : n < 2 ^ 32) (hf : n ≤ fuel) :
    ∃ l, Latency.measure clients each (writeCall base depth) n fuel = some l ∧ Moves v clients (List.replicate (n * depth.toNat) (.wr base 0xbebafeca#32)) l ∧
      (clients * n * depth.toNat < 2 ^ 64 → payload clients n depth = clients * (List.replicate (n * depth.toNat) (Acc.wr base 0xbebafeca#32)).length) := by
  obtain ⟨l, h1, h2⟩ := lat_moves v clients each (writeCall base depth) (List.replicate depth.toNat (.wr base 0xbebafeca#32)) (by
    simp [writeCall, opAccs, addrs, List.map_const']) n fuel hn hf
  refine ⟨l, h1, by rw [replicate_blocks] at h2; exact h2, fun h => ?_⟩
  rw [payload, Nat.mod_eq_of_lt h, List.length_replicate, Nat.mul_assoc]

/-- Two clients, three turns. -/
example : (3 : Nat) < 2 ^ 32 ∧ Latency.measure 2 false (readCall 0x1000#32 340#32) 3 3 =
    some [(0, readCall 0x1000#32 340#32), (1, readCall 0x1000#32 340#32), (0, readCall 0x1000#32 340#32), (1, readCall 0x1000#32 340#32), (0, readCall 0x1000#32 340#32), (1, readCall 0x1000#32 340#32),
      (0, .dispatch), (1, .dispatch)] ∧ payload 2 3 340#32 = 2040 := by
  refine ⟨by decide, by decide +kernel, by decide +kernel⟩

/-! ### Where the tests go wrong -/

/-- With 2^32 turns or more the loop never ends. -/
theorem C97_violated_endless (clients : Nat) (each : Bool) (o : Op) (n : Nat) (hn : 2 ^ 32 ≤ n) : ∀ fuel, Latency.measure clients each o n fuel = none := by
  intro fuel
  have : ∀ (fuel : Nat) (i : W), loop clients each o n fuel i = none := by
    intro fuel
    induction fuel with
    | zero =>
      intro i
      unfold loop
      rw [if_pos (by have := i.isLt; omega)]
    | succ fuel ih =>
      intro i
      unfold loop
      rw [if_pos (by have := i.isLt; omega)]
      simp only [ih]
      rfl
  unfold Latency.measure
  rw [this]
  rfl

/-- 2^10 clients, 2^31 turns, 2^23 words: 0 words are reported. -/
theorem C97_violated_product : payload (2 ^ 10) (2 ^ 31) (BitVec.ofNat 32 (2 ^ 23)) = 0 ∧ 2 ^ 10 * 2 ^ 31 * (2 ^ 23) ≠ 0 := by decide +kernel

end Verif
