import Verif.Lemmas.PoolKept
import Verif.Lemmas.PoolTcp
/-!
# No buffer is lost: TCP, PCIe and mmap clients
-/

set_option autoImplicit false
set_option linter.unusedSimpArgs false

namespace Verif

open Spec

namespace TcpP

/-- Of `mReplyBuffers.first`: in the loop over its packets, those that have not been validated. -/
def rest (p : TcpP) : List Nat :=
  match p.mid with
  | some (.check todo _ _) => todo
  | _ => p.reply

def used (p : TcpP) : List Nat := p.cur.toList ++ p.disp ++ p.dispQ ++ p.replyQ.flatten ++ p.held.toList ++ p.rest

def all (p : TcpP) : List Nat := p.pool ++ p.used

/-- The loop is over packets of `mReplyBuffers.first`. -/
def Todo (p : TcpP) : Prop := ∀ i ∈ p.rest, i ∈ p.reply

/-- A step that loses nothing. -/
def Keeps (p q : TcpP) : Prop := p.made ≤ q.made ∧ (∀ i ∈ p.all, i ∈ q.all) ∧ ∀ i, p.made ≤ i → i < q.made → i ∈ q.all

theorem Keeps.refl (p : TcpP) : Keeps p p := ⟨Nat.le_refl _, fun _ h => h, fun i h1 h2 => by omega⟩

theorem keeps_of {p q : TcpP} (hm : q.made = p.made) (h : ∀ i ∈ p.all, i ∈ q.all) : Keeps p q := ⟨by omega, h, fun i h1 h2 => by omega⟩

theorem Keeps.trans {p q r : TcpP} (h1 : Keeps p q) (h2 : Keeps q r) : Keeps p r :=
  ⟨Nat.le_trans h1.1 h2.1, fun i h => h2.2.1 i (h1.2.1 i h), fun i a b => by
    by_cases e : i < q.made
    · exact h2.2.1 i (h1.2.2 i a e)
    · exact h2.2.2 i (by omega) b⟩

theorem keeps_stock (p : TcpP) : Keeps p p.stock := by
  unfold stock
  split
  · rename_i e
    refine ⟨by simp, fun i hi => ?_, fun i h1 h2 => ?_⟩
    · simp only [all, used, rest, e, List.nil_append] at hi ⊢
      exact List.mem_append_right _ hi
    · simp only [all]
      exact List.mem_append_left _ (List.mem_range'_1.2 ⟨h1, h2⟩)
  · exact .refl p

theorem keeps_take (p : TcpP) : Keeps p p.take := by
  unfold take
  split
  · exact .refl p
  · rename_i e
    have ec : p.stock.cur = none := by rw [← e]; unfold stock; split <;> rfl
    split
    · exact keeps_stock p
    · rename_i i is e2
      refine (keeps_stock p).trans (keeps_of rfl fun j hj => ?_)
      simp only [all, used, rest, e2, ec, put, Option.toList, List.mem_append, List.mem_cons] at hj ⊢
      grind

theorem keeps_fill (p : TcpP) (f : Buf → Buf) : Keeps p (p.fill f) := by
  unfold fill
  split
  · exact .refl p
  · exact keeps_of rfl fun j hj => hj

theorem keeps_giveBack (p : TcpP) : Keeps p p.giveBack := by
  unfold giveBack
  split
  · exact .refl p
  · rename_i i e
    refine keeps_of rfl fun j hj => ?_
    simp only [all, used, rest, e, Option.toList, List.mem_append, List.mem_cons] at hj ⊢
    grind

theorem keeps_write (n : Nat) (p : TcpP) : Keeps p (p.write n) := by
  refine keeps_of rfl fun j hj => ?_
  have := List.take_append_drop n p.dispQ
  have hd : j ∈ p.dispQ → j ∈ p.dispQ.take n ∨ j ∈ p.dispQ.drop n := fun h => List.mem_append.1 (by rw [this]; exact h)
  simp only [all, used, rest, write, List.mem_append] at hj ⊢
  grind

theorem keeps_handOver (p : TcpP) (hm : p.mid = none) : Keeps p p.handOver := by
  unfold handOver
  split
  · refine keeps_of rfl fun j hj => ?_
    simp only [all, used, rest, List.mem_append, List.flatten_append, List.flatten_cons, List.flatten_nil, List.append_nil] at hj ⊢
    grind
  · rename_i e
    have e : p.reply = [] := by simpa using e
    refine keeps_of rfl fun j hj => ?_
    simp only [all, used, rest, read, e, hm, List.mem_append] at hj ⊢
    grind

theorem keeps_sendDone (p : TcpP) (hm : p.mid = none) (n maxN : Nat) (ok : Bool) : Keeps p (p.sendDone n maxN ok) := by
  unfold sendDone
  split
  · exact .refl p
  · rename_i ops e
    simp only
    have k : Keeps p { p with sendOps := ops } := keeps_of rfl fun j hj => hj
    split
    · exact keeps_of rfl fun j hj => hj
    · split
      · exact keeps_of rfl fun j hj => hj
      · split
        · exact keeps_of rfl fun j hj => hj
        · have k2 := k.trans (keeps_handOver { p with sendOps := ops } hm)
          split
          · exact k2.trans (keeps_write _ _)
          · exact k2

theorem keeps_recvHdr (p : TcpP) (hm : p.mid = none) (r : Option Nat) : Keeps p (p.recvHdr r) := by
  unfold recvHdr
  split
  · exact .refl p
  · simp only
    split
    · exact keeps_of rfl fun j hj => hj
    · split
      · exact keeps_of rfl fun j hj => hj
      · split <;>
        · refine keeps_of rfl fun j hj => ?_
          simpa only [all, used, rest, hm] using hj

theorem keeps_recvBody (p : TcpP) (r : Option (List W)) : Keeps p (p.recvBody r) := by
  unfold recvBody
  split
  · rename_i k hm
    split
    · refine keeps_of rfl fun j hj => ?_
      simpa only [all, used, rest, hm] using hj
    · split
      · refine keeps_of rfl fun j hj => ?_
        simpa only [all, used, rest, hm] using hj
      · refine keeps_of rfl fun j hj => ?_
        simpa only [all, used, rest, hm] using hj
  · exact .refl p

theorem keeps_valid (p : TcpP) (ht : Todo p) (c : Cfg) : Keeps p (p.valid c) := by
  unfold valid
  split
  · rename_i i is ws body hm hh
    split
    · refine keeps_of rfl fun j hj => ?_
      simp only [all, used, rest, hm, hh, Option.toList, List.mem_append, List.mem_cons] at hj ⊢
      grind
    · refine keeps_of rfl fun j hj => ?_
      simp only [Todo, rest, hm] at ht
      have := ht j
      simp only [all, used, rest, hm, hh, Option.toList, List.mem_append, List.mem_cons] at hj this ⊢
      grind
    · exact keeps_of rfl fun j hj => hj
  · exact .refl p

theorem keeps_advance (p : TcpP) (ws body : List W) (n maxN : Nat) :
    Keeps { p with mid := some (.check [] ws body) } ({ p with mid := none }.advance n maxN) := by
  have kp : Keeps { p with mid := some (.check [] ws body) } { p with mid := none }.pop := by
    unfold pop
    simp only
    split
    · rename_i b q e
      refine keeps_of rfl fun j hj => ?_
      simp only [all, used, rest, read, e, List.flatten_cons, List.mem_append] at hj ⊢
      grind
    · rename_i e
      refine keeps_of rfl fun j hj => ?_
      simp only [all, used, rest, e, List.mem_append] at hj ⊢
      grind
  have key : ∀ q : TcpP, Keeps { p with mid := some (.check [] ws body) } q →
      Keeps { p with mid := some (.check [] ws body) } (if q.disp = [] && q.reply = [] then { q with deadline := .armed, flushDone := true } else q) := by
    intro q h
    split
    · exact h
    · exact h
  unfold advance
  apply key
  split
  · exact kp.trans (keeps_write _ _)
  · exact kp

theorem keeps_recvEnd (p : TcpP) (n maxN : Nat) : Keeps p (p.recvEnd n maxN) := by
  unfold recvEnd
  split
  · rename_i hm
    refine keeps_of rfl fun j hj => ?_
    simpa only [all, used, rest, fail, close, hm] using hj
  · rename_i hm
    refine keeps_of rfl fun j hj => ?_
    simpa only [all, used, rest, hm] using hj
  · rename_i hm
    refine keeps_of rfl fun j hj => ?_
    simpa only [all, used, rest, hm] using hj
  · rename_i ws body hm
    have := keeps_advance p ws body n maxN
    rwa [show { p with mid := some (.check [] ws body) } = p by rw [← hm]] at this
  · exact .refl p

theorem keeps_net (p : TcpP) (ht : Todo p) (c : Cfg) (n maxN : Nat) (e : Net) : Keeps p (p.net c n maxN e) := by
  unfold net
  split
  · exact keeps_sendDone p (by assumption) _ _ _
  · exact keeps_recvHdr p (by assumption) _
  · unfold timeout
    split
    · exact keeps_of rfl fun j hj => hj
    · exact .refl p
  · exact keeps_recvBody p _
  · exact keeps_valid p ht _
  · exact keeps_giveBack p
  · split
    · exact .refl p
    · exact keeps_recvEnd p _ _
  · exact .refl p

theorem keeps_dispatch (p : TcpP) (n maxN : Nat) (conn : Bool) : Keeps p (p.dispatch n maxN conn) := by
  unfold dispatch
  split
  · exact .refl p
  · rename_i i e
    split
    · exact keeps_of rfl fun j hj => hj
    · split
      · exact keeps_of rfl fun j hj => hj
      · simp only
        have k1 : Keeps p (if p.sock then p else { p with sock := true, deadline := .armed }) := by
          split
          · exact .refl p
          · exact keeps_of rfl fun j hj => hj
        have c1 : (if p.sock then p else { p with sock := true, deadline := .armed }).cur = some i := by split <;> exact e
        revert k1 c1
        generalize (if p.sock then p else { p with sock := true, deadline := .armed }) = q
        intro k1 c1
        have k2 : Keeps p { q with cur := none, flushStarted := false, dispQ := q.dispQ ++ [i], dispatched := q.dispatched ++ [q.mem i] } := by
          refine k1.trans (keeps_of rfl fun j hj => ?_)
          simp only [all, used, rest, c1, Option.toList, List.mem_append, List.mem_cons] at hj ⊢
          grind
        split
        · exact k2.trans (keeps_write _ _)
        · exact k2

theorem keeps_act (p : TcpP) (ht : Todo p) (c : Cfg) (n maxN : Nat) (a : Act) (ha : a ≠ .handler) : Keeps p (p.act c n maxN a) := by
  unfold act
  split
  · exact .refl p
  · cases a
    · exact keeps_take p
    · exact keeps_fill p _
    · dsimp only; split
      · exact keeps_dispatch p _ _ _
      · exact .refl p
    · dsimp only; split
      · unfold flushStart
        simp only
        have k : Keeps p { p with flushStarted := true, pc := .flushing } := keeps_of rfl fun j hj => hj
        split
        · exact k.trans (keeps_write _ _)
        · exact k
      · exact .refl p
    · dsimp only; split
      · unfold flushEnd
        split
        · split <;> exact keeps_of rfl fun j hj => hj
        · exact .refl p
      · exact .refl p
    · exact absurd rfl ha
    · exact keeps_net p ht _ _ _ _

theorem todo_none {p : TcpP} (h : p.mid = none) : Todo p := by intro i hi; simpa only [rest, h] using hi

theorem todo_same {p q : TcpP} (h : Todo p) (hm : q.mid = p.mid) (hr : q.reply = p.reply) : Todo q := by
  intro i hi
  rw [hr]
  apply h
  simpa only [rest, hm, hr] using hi

theorem write_mid (n : Nat) (p : TcpP) : (p.write n).mid = p.mid := rfl

theorem handOver_mid (p : TcpP) : p.handOver.mid = p.mid := by unfold handOver read; split <;> rfl

theorem sendDone_mid (n maxN : Nat) (ok : Bool) (p : TcpP) : (p.sendDone n maxN ok).mid = p.mid := by
  unfold sendDone fail close
  split
  · rfl
  · simp only
    repeat' (first | rfl | (rw [write_mid, handOver_mid]) | (rw [handOver_mid]) | split)

theorem advance_mid (n maxN : Nat) (p : TcpP) : (p.advance n maxN).mid = p.mid := by
  have hp : p.pop.mid = p.mid := by unfold pop read; simp only; split <;> rfl
  unfold advance
  simp only
  repeat' (first | exact hp | rfl | split)

theorem todo_init : Todo init := todo_none rfl

theorem stock_mid (p : TcpP) : p.stock.mid = p.mid := by unfold stock; split <;> rfl
theorem stock_reply (p : TcpP) : p.stock.reply = p.reply := by unfold stock; split <;> rfl

theorem todo_act (p : TcpP) (h : Todo p) (c : Cfg) (n maxN : Nat) (a : Act) : Todo (p.act c n maxN a) := by
  unfold act
  split
  · exact h
  · cases a
    · dsimp only
      unfold take
      split
      · exact h
      · split
        · exact todo_same h (stock_mid p) (stock_reply p)
        · exact todo_same h (stock_mid p) (stock_reply p)
    · dsimp only; unfold fill; split
      · exact h
      · exact todo_same h rfl rfl
    · dsimp only; split
      · unfold dispatch
        split
        · exact h
        · split
          · exact todo_same h rfl rfl
          · split
            · exact todo_same h rfl rfl
            · simp only
              split <;> split <;> exact todo_same h rfl rfl
      · exact h
    · dsimp only; split
      · unfold flushStart; simp only; split <;> exact todo_same h rfl rfl
      · exact h
    · dsimp only; split
      · unfold flushEnd; repeat' (first | exact h | exact todo_same h rfl rfl | split)
      · exact h
    · dsimp only; split
      · unfold handler
        split
        · exact todo_same h rfl rfl
        · rename_i hn
          intro i hi
          simp only [rest, close] at hi
          split at hi
          · rename_i t w b hm
            cases t with
            | nil => cases hi
            | cons x xs => exact absurd hm (hn x xs w b)
          · cases hi
      · exact h
    · dsimp only
      unfold net
      split
      · rename_i hm; exact todo_none (by rw [sendDone_mid, hm])
      · rename_i hm
        unfold recvHdr
        split
        · exact h
        · simp only
          split
          · exact todo_same h rfl rfl
          · split
            · exact todo_same h rfl rfl
            · split <;> exact fun i hi => hi
      · unfold timeout close; split <;> exact todo_same h rfl rfl
      · unfold recvBody
        split
        · split
          · exact fun i hi => hi
          · split <;> exact fun i hi => hi
        · exact h
      · unfold valid
        split
        · rename_i i is ws body hm hh
          simp only [Todo, rest, hm] at h
          split
          · exact fun j hj => h j (List.mem_cons_of_mem _ hj)
          · exact fun j hj => hj
          · intro j hj; simp only [rest, hm] at hj; exact h j hj
        · exact h
      · unfold giveBack; split
        · exact h
        · exact todo_same h rfl rfl
      · split
        · exact h
        · unfold recvEnd
          split
          · exact todo_none rfl
          · exact fun i hi => hi
          · exact todo_none rfl
          · exact todo_none (by rw [advance_mid])
          · exact h
      · exact h

theorem made_act (p : TcpP) (c : Cfg) (n maxN : Nat) (a : Act) :
    (p.act c n maxN a).made = p.made ∨ (p.pool = [] ∧ (p.act c n maxN a).made = p.made + 10) := by
  unfold act
  split
  · exact .inl rfl
  · cases a
    · show p.take.made = _ ∨ _ ∧ p.take.made = _
      have hs : p.stock.made = p.made ∨ (p.pool = [] ∧ p.stock.made = p.made + 10) := by
        unfold stock
        split
        · exact .inr ⟨by assumption, rfl⟩
        · exact .inl rfl
      unfold take
      split
      · exact .inl rfl
      · split <;> exact hs
    · left; show (p.fill _).made = _; unfold fill; split <;> rfl
    · left
      dsimp only
      split
      · unfold dispatch
        split
        · rfl
        · split
          · rfl
          · split
            · rfl
            · simp only
              split <;> split <;> rfl
      · rfl
    · left; dsimp only; unfold flushStart; simp only; repeat' (first | rfl | split)
    · left; dsimp only; unfold flushEnd; repeat' (first | rfl | split)
    · left; dsimp only; unfold handler; repeat' (first | rfl | split)
    · left
      have hh : ∀ q : TcpP, q.handOver.made = q.made := by intro q; unfold handOver read; split <;> rfl
      show (p.net _ _ _ _).made = _
      unfold net
      split
      · unfold sendDone fail close
        split
        · rfl
        · simp only
          split
          · rfl
          · split
            · rfl
            · split
              · rfl
              · split
                · exact hh _
                · exact hh _
      · unfold recvHdr fail
        split
        · rfl
        · simp only
          repeat' (first | rfl | split)
      · unfold timeout close; split <;> rfl
      · unfold recvBody; repeat' (first | rfl | split)
      · unfold valid; repeat' (first | rfl | split)
      · unfold giveBack; split <;> rfl
      · split
        · rfl
        · unfold recvEnd fail close
          split
          · rfl
          · rfl
          · rfl
          · have hp : ∀ q : TcpP, q.pop.made = q.made := by intro q; unfold pop read; simp only; split <;> rfl
            unfold advance
            simp only
            split
            · split <;> exact hp _
            · split <;> exact hp _
          · rfl
      · rfl

end TcpP

namespace PagedP

def used (p : PagedP) : List Nat := p.cur.toList ++ p.queue

def all (p : PagedP) : List Nat := p.pool ++ p.used

/-- A step that loses nothing. -/
def Keeps (p q : PagedP) : Prop := p.made ≤ q.made ∧ (∀ i ∈ p.all, i ∈ q.all) ∧ ∀ i, p.made ≤ i → i < q.made → i ∈ q.all

theorem Keeps.refl (p : PagedP) : Keeps p p := ⟨Nat.le_refl _, fun _ h => h, fun i h1 h2 => by omega⟩

theorem keeps_of {p q : PagedP} (hm : q.made = p.made) (h : ∀ i ∈ p.all, i ∈ q.all) : Keeps p q := ⟨by omega, h, fun i h1 h2 => by omega⟩

theorem Keeps.trans {p q r : PagedP} (h1 : Keeps p q) (h2 : Keeps q r) : Keeps p r :=
  ⟨Nat.le_trans h1.1 h2.1, fun i h => h2.2.1 i (h1.2.1 i h), fun i a b => by
    by_cases e : i < q.made
    · exact h2.2.1 i (h1.2.2 i a e)
    · exact h2.2.2 i (by omega) b⟩

theorem keeps_stock (p : PagedP) : Keeps p p.stock := by
  unfold stock
  split
  · rename_i e
    refine ⟨by simp, fun i hi => ?_, fun i h1 h2 => ?_⟩
    · simp only [all, used, e, List.nil_append] at hi ⊢
      exact List.mem_append_right _ hi
    · simp only [all]
      exact List.mem_append_left _ (List.mem_range'_1.2 ⟨h1, h2⟩)
  · exact .refl p

theorem keeps_act (p : PagedP) (a : Act) (ha : a ≠ .handler) (hb : a ≠ .read .broken) : Keeps p (p.act a) := by
  cases a with
  | take =>
    show Keeps p p.take
    unfold take
    split
    · exact .refl p
    · rename_i e
      have ec : p.stock.cur = none := by rw [← e]; unfold stock; split <;> rfl
      split
      · exact keeps_stock p
      · rename_i i is e2
        refine (keeps_stock p).trans (keeps_of rfl fun j hj => ?_)
        simp only [all, used, e2, ec, put, Option.toList, List.mem_append, List.mem_cons] at hj ⊢
        grind
  | fill f =>
    show Keeps p (p.fill f)
    unfold fill
    split
    · exact .refl p
    · exact keeps_of rfl fun j hj => hj
  | write =>
    show Keeps p p.write
    unfold write
    split
    · exact .refl p
    · rename_i i e
      refine keeps_of rfl fun j hj => ?_
      simp only [all, used, e, Option.toList, List.mem_append, List.mem_cons] at hj ⊢
      grind
  | read g =>
    show Keeps p (p.read g)
    unfold read
    split
    · exact .refl p
    · exact .refl p
    · exact absurd rfl hb
    · rename_i i q e
      refine keeps_of rfl fun j hj => ?_
      simp only [all, used, e, Option.toList, List.mem_append, List.mem_cons] at hj ⊢
      grind
  | handler => exact absurd rfl ha

theorem made_act (p : PagedP) (a : Act) : (p.act a).made = p.made ∨ (p.pool = [] ∧ (p.act a).made = p.made + 10) := by
  cases a with
  | take =>
    show p.take.made = _ ∨ _ ∧ p.take.made = _
    have hs : p.stock.made = p.made ∨ (p.pool = [] ∧ p.stock.made = p.made + 10) := by
      unfold stock
      split
      · exact .inr ⟨by assumption, rfl⟩
      · exact .inl rfl
    unfold take
    split
    · exact .inl rfl
    · split <;> exact hs
  | fill f => left; show (p.fill f).made = _; unfold fill; split <;> rfl
  | write => left; show p.write.made = _; unfold write; split <;> rfl
  | read g => left; show (p.read g).made = _; unfold read; split <;> rfl
  | handler => exact .inl rfl

end PagedP
end Verif
