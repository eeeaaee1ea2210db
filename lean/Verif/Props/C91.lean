import Verif.Lemmas.PoolKeptTcp
import Verif.Props.C88Tcp
import Verif.Props.C89
/-!
# C91: the pool of packet buffers does not grow with the number of packets

Between two runs of the exception handler no buffer is lost: every object that has been constructed is in the pool, with the user thread, in one of the
queues of the transport, or in `validate`. Ten more are constructed only if the pool is empty. So their number is bounded by the greatest number of packets that
were under way at the same time, plus ten.

PCIe and mmap clients drop a packet whose page cannot be read or has a bad size; an exception follows.
-/

set_option autoImplicit false

namespace Verif

open Spec

/-- Where the objects of a UDP client are, apart from the pool: user thread, `mDispatchBuffers`, queues, `validate`, `mReplyBuffers`. -/
def UdpP.busy (p : UdpP) : List Nat := p.cur.toList ++ p.disp.toList ++ p.dispQ ++ p.replyQ ++ p.held.toList ++ p.reply.toList

/-- The same for a TCP client. -/
def TcpP.busy (p : TcpP) : List Nat := p.cur.toList ++ p.disp ++ p.dispQ ++ p.replyQ.flatten ++ p.held.toList ++ p.reply

/-- The same for PCIe and mmap clients. -/
def PagedP.busy (p : PagedP) : List Nat := p.cur.toList ++ p.queue

/-- What all three have in common: steps that keep objects, and construct ten if the pool is empty. -/
theorem kept_run {S A : Type} (act : S → A → S) (made : S → Nat) (pool busy all : S → List Nat) (Inv : S → Prop) (good : A → Prop)
    (hinv : ∀ s a, Inv s → Inv (act s a))
    (hkeep : ∀ s a, Inv s → good a → made s ≤ made (act s a) ∧ (∀ i ∈ all s, i ∈ all (act s a)) ∧
      ∀ i, made s ≤ i → i < made (act s a) → i ∈ all (act s a))
    (hall : ∀ s, Inv s → ∀ i ∈ all s, i ∈ pool s ++ busy s)
    (hmade : ∀ s a, made (act s a) = made s ∨ (pool s = [] ∧ made (act s a) = made s + 10)) (s0 : S) (h0 : Inv s0) (as : List A)
    (hg : ∀ a ∈ as, good a) :
    AllIn (made s0) (made (as.foldl act s0)) (pool (as.foldl act s0) ++ busy (as.foldl act s0)) ∧
    ∀ K, (∀ bs cs, as = bs ++ cs → (busy (bs.foldl act s0)).length ≤ K) → made (as.foldl act s0) ≤ made s0 + K + 10 := by
  have key : ∀ (as : List A), (∀ a ∈ as, good a) → Inv (as.foldl act s0) ∧ made s0 ≤ made (as.foldl act s0) ∧
      (∀ i, made s0 ≤ i → i < made (as.foldl act s0) → i ∈ all (as.foldl act s0)) ∧
      ∀ K, (∀ bs cs, as = bs ++ cs → (busy (bs.foldl act s0)).length ≤ K) → made (as.foldl act s0) ≤ made s0 + K + 10 := by
    intro as
    induction as using snoc_ind with
    | h0 => exact fun _ => ⟨h0, Nat.le_refl _, fun i h1 h2 => by simp only [List.foldl_nil] at h2; omega, fun K _ => by simp only [List.foldl_nil]; omega⟩
    | h1 as a ih =>
      intro hg
      obtain ⟨h1, h2, h3, h4⟩ := ih fun x hx => hg x (List.mem_append_left _ hx)
      have hk := hkeep _ a h1 (hg a (List.mem_append_right _ (List.mem_cons_self ..)))
      rw [List.foldl_append, List.foldl_cons, List.foldl_nil]
      refine ⟨hinv _ _ h1, Nat.le_trans h2 hk.1, ?_, ?_⟩
      · intro i ha hb
        by_cases e : i < made (as.foldl act s0)
        · exact hk.2.1 i (h3 i ha e)
        · exact hk.2.2 i (by omega) hb
      · intro K hK
        have b := h4 K fun bs cs e => hK bs (cs ++ [a]) (by rw [e, List.append_assoc])
        rcases hmade (as.foldl act s0) a with e | ⟨e1, e2⟩
        · omega
        · have hl : made (as.foldl act s0) - made s0 ≤ (busy (as.foldl act s0)).length := by
            apply allIn_length _ (made s0)
            intro i ha hb
            have := hall _ h1 i (h3 i ha (by omega))
            rwa [e1, List.nil_append] at this
          have := hK as [a] rfl
          omega
  obtain ⟨h1, _, h3, h4⟩ := key as hg
  exact ⟨fun i ha hb => hall _ h1 i (h3 i ha hb), h4⟩

/-- UDP: after any schedule `as`, and then any schedule `bs` without a run of the exception handler, every object constructed in `bs` is still there, and there are at
most ten more than were in use at one time. -/
theorem C91_udp (c : Cfg) (N : Nat) (as bs : List UdpP.Act) (hb : UdpP.Act.handler ∉ bs) :
    let p0 := UdpP.run c N as
    let p := UdpP.run c N (as ++ bs)
    AllIn p0.made p.made (p.pool ++ p.busy) ∧
    ∀ K, (∀ b1 b2, bs = b1 ++ b2 → (UdpP.run c N (as ++ b1)).busy.length ≤ K) → p.made ≤ p0.made + K + 10 := by
  have h := kept_run (UdpP.act c N) UdpP.made UdpP.pool UdpP.busy UdpP.all UdpP.Own (· ≠ .handler) (fun s a h => UdpP.own_act h c N a)
    (fun s a h ha => UdpP.keeps_act s h c N a ha)
    (fun s _ i hi => by
      simp only [UdpP.all, UdpP.used, UdpP.busy, List.mem_append] at hi ⊢
      grind)
    (fun s a => UdpP.made_act s c N a) (UdpP.run c N as) (UdpP.reach c N as).1 bs (fun a ha e => hb (e ▸ ha))
  have e : ∀ l, UdpP.run c N (as ++ l) = l.foldl (UdpP.act c N) (UdpP.run c N as) := fun l => by unfold UdpP.run; rw [List.foldl_append]
  intro p0 p
  show AllIn p0.made p.made (p.pool ++ p.busy) ∧ _
  simp only [p, p0, e]
  exact h

/-- TCP. -/
theorem C91_tcp (c : Cfg) (n N : Nat) (as bs : List TcpP.Act) (hb : TcpP.Act.handler ∉ bs) :
    let p0 := TcpP.run c n N as
    let p := TcpP.run c n N (as ++ bs)
    AllIn p0.made p.made (p.pool ++ p.busy) ∧
    ∀ K, (∀ b1 b2, bs = b1 ++ b2 → (TcpP.run c n N (as ++ b1)).busy.length ≤ K) → p.made ≤ p0.made + K + 10 := by
  have ht : ∀ l : List TcpP.Act, TcpP.Todo (TcpP.run c n N l) := by
    intro l
    induction l using snoc_ind with
    | h0 => exact TcpP.todo_init
    | h1 l a ih => unfold TcpP.run at ih ⊢; rw [List.foldl_append]; exact TcpP.todo_act _ ih c n N a
  have h := kept_run (TcpP.act c n N) TcpP.made TcpP.pool TcpP.busy TcpP.all TcpP.Todo (· ≠ .handler) (fun s a h => TcpP.todo_act s h c n N a)
    (fun s a h ha => TcpP.keeps_act s h c n N a ha)
    (fun s h i hi => by
      have := h i
      simp only [TcpP.all, TcpP.used, TcpP.busy, List.mem_append] at hi ⊢
      grind)
    (fun s a => TcpP.made_act s c n N a) (TcpP.run c n N as) (ht as) bs (fun a ha e => hb (e ▸ ha))
  have e : ∀ l, TcpP.run c n N (as ++ l) = l.foldl (TcpP.act c n N) (TcpP.run c n N as) := fun l => by unfold TcpP.run; rw [List.foldl_append]
  intro p0 p
  show AllIn p0.made p.made (p.pool ++ p.busy) ∧ _
  simp only [p, p0, e]
  exact h

/-- PCIe and mmap, without exceptions. -/
theorem C91_paged (as bs : List PagedP.Act) (hb : PagedP.Act.handler ∉ bs) (hr : PagedP.Act.read .broken ∉ bs) :
    let p0 := PagedP.run as
    let p := PagedP.run (as ++ bs)
    AllIn p0.made p.made (p.pool ++ p.busy) ∧
    ∀ K, (∀ b1 b2, bs = b1 ++ b2 → (PagedP.run (as ++ b1)).busy.length ≤ K) → p.made ≤ p0.made + K + 10 := by
  have h := kept_run PagedP.act PagedP.made PagedP.pool PagedP.busy PagedP.all (fun _ => True) (fun a => a ≠ .handler ∧ a ≠ .read .broken) (fun _ _ _ => trivial)
    (fun s a _ ha => PagedP.keeps_act s a ha.1 ha.2) (fun s _ i hi => hi) PagedP.made_act (PagedP.run as) trivial bs
    (fun a ha => ⟨fun e => hb (e ▸ ha), fun e => hr (e ▸ ha)⟩)
  have e : ∀ l, PagedP.run (as ++ l) = l.foldl PagedP.act (PagedP.run as) := fun l => by unfold PagedP.run; rw [List.foldl_append]
  intro p0 p
  show AllIn p0.made p.made (p.pool ++ p.busy) ∧ _
  simp only [p, p0, e]
  exact h

/-- A packet whose page cannot be read is not in any place afterwards. -/
theorem C91_violated_broken : ∃ bs : List PagedP.Act, PagedP.Act.handler ∉ bs ∧
    ¬ AllIn 0 (PagedP.run bs).made ((PagedP.run bs).pool ++ (PagedP.run bs).busy) :=
  ⟨[.take, .write, .read .broken], by simp, fun h => absurd (h 0 (by decide) (by decide)) (by decide)⟩

/-- Twelve packets one after the other, sent, answered and given back, in ten objects. -/
example :
    let one : List PagedP.Act := [.take, .write, .read .validated]
    let p := PagedP.run (List.replicate 12 one).flatten
    p.made = 10 ∧ p.pool.length = 10 ∧ p.taken.length = 12 := by decide +kernel

/-- Two UDP packets under way at once, then a third one. -/
example :
    let p := UdpP.run ⟨.v2, none, 1400, 1400, true⟩ 2 [.take, .dispatch, .take, .dispatch, .ev (.sendDone true), .take]
    p.made = 10 ∧ p.busy.length = 3 ∧ p.pool.length = 7 := by decide +kernel

/-- TCP: eleven packets wait, the pool is empty once and ten more objects are constructed. -/
example :
    let p := TcpP.run ⟨.v2, none, 1400, 1400, true⟩ 3 16 (List.replicate 11 [TcpP.Act.take, TcpP.Act.dispatch true]).flatten
    p.made = 20 ∧ p.busy.length = 11 ∧ p.pool.length = 9 ∧ p.disp.length = 3 := by decide +kernel

end Verif
