import Verif.Spec.Perf
/-!
# Lemmas about the performance tester
-/

set_option autoImplicit false
set_option linter.unusedSimpArgs false

namespace Verif.Perf
open Verif Spec

theorem pick_some (f : Msg → Bool) : ∀ (l : List Msg) (m : Msg) (r : List Msg), pick f l = some (m, r) → f m = true ∧ l.Perm (m :: r)
  | [], _, _, h => by cases h
  | x :: xs, m, r, h => by
    unfold pick at h
    split at h
    next hx =>
      simp only [Option.some.injEq, Prod.mk.injEq] at h
      obtain ⟨rfl, rfl⟩ := h
      exact ⟨hx, .refl _⟩
    next =>
      cases e : pick f xs with
      | none => rw [e] at h; cases h
      | some q =>
        rw [e] at h
        simp only [Option.map_some, Option.some.injEq, Prod.mk.injEq] at h
        obtain ⟨rfl, rfl⟩ := h
        obtain ⟨h1, h2⟩ := pick_some f xs q.1 q.2 e
        exact ⟨h1, (List.Perm.cons x h2).trans (List.Perm.swap _ _ _)⟩

theorem pick_none (f : Msg → Bool) : ∀ (l : List Msg), pick f l = none → ∀ m ∈ l, f m = false
  | [], _, _, h => by cases h
  | x :: xs, h, m, hm => by
    unfold pick at h
    split at h
    next => cases h
    next hx =>
      cases e : pick f xs with
      | some q => rw [e] at h; cases h
      | none =>
        rcases List.mem_cons.1 hm with rfl | hm
        · simpa using hx
        · exact pick_none f xs e m hm

/-- What holds when the portions `pre` have arrived. -/
structure Inv (n : Nat) (max : Int) (reply : Pkt) (pre : List (List Msg)) (s : St) : Prop where
  sum : (s.sent : Int) + s.left = n
  right : ∀ m ∈ s.got, m = .pkt reply
  fly : s.inFlight = (s.sent : Int) - s.got.length
  low : 0 ≤ s.inFlight
  high : s.inFlight ≤ max
  left : 0 ≤ s.left
  big : 1 ≤ max
  count : pre.flatten.countP IsPkt = s.got.length + s.box.countP IsPkt
  box : ∀ m ∈ s.box, m ∈ pre.flatten

theorem Inv.start (n : Nat) (max : Int) (reply : Pkt) (h : 1 ≤ max) : Inv n max reply [] (start n) :=
  ⟨by simp [Perf.start], by simp [Perf.start], by simp [Perf.start], by simp [Perf.start], by simp only [Perf.start]; omega, by simp [Perf.start], h, by simp [Perf.start], by simp [Perf.start]⟩

theorem Inv.window {n : Nat} {max : Int} {reply : Pkt} {pre : List (List Msg)} {s : St} (h : Inv n max reply pre s) : KeepsWindow n max reply s := by
  have := h.fly; have := h.low; have := h.high
  exact ⟨h.sum, h.right, by omega, by omega⟩

/-- The mailbox after a portion has come. -/
theorem Inv.more {n : Nat} {max : Int} {reply : Pkt} {pre : List (List Msg)} {s : St} (h : Inv n max reply pre s) (a : List Msg) :
    ((pre ++ [a]).flatten.countP IsPkt = s.got.length + (s.box ++ a).countP IsPkt) ∧ ∀ m ∈ s.box ++ a, m ∈ (pre ++ [a]).flatten := by
  constructor
  · simp only [List.flatten_append, List.flatten_cons, List.flatten_nil, List.append_nil, List.countP_append, h.count]
    omega
  · intro m hm
    simp only [List.flatten_append, List.flatten_cons, List.flatten_nil, List.append_nil, List.mem_append] at hm ⊢
    rcases hm with hm | hm
    · exact .inl (h.box m hm)
    · exact .inr hm

theorem Inv.ok {n : Nat} {max : Int} {reply : Pkt} {pre : List (List Msg)} {s : St} (h : Inv n max reply pre s) (e : s.inFlight = 0 ∧ s.left = 0) :
    s.sent = n ∧ s.got.length = n ∧ ∀ m ∈ s.got, m = .pkt reply := by
  have := h.fly; have := h.sum
  exact ⟨by omega, by omega, h.right⟩

/-- A reply is taken. -/
theorem snoc_right {reply : Pkt} {got : List Msg} (h : ∀ m ∈ got, m = .pkt reply) : ∀ m ∈ got ++ [.pkt reply], m = .pkt reply := by
  intro m hm
  rcases List.mem_append.1 hm with hm | hm
  · exact h m hm
  · simpa using hm

theorem take_pre (pre arr : List (List Msg)) (a : List Msg) : (pre ++ a :: arr).take (pre.length + 1) = pre ++ [a] := by
  rw [show pre ++ a :: arr = (pre ++ [a]) ++ arr by simp]
  exact List.take_left' (by simp)

theorem mem_whole {pre arr : List (List Msg)} {a : List Msg} {m : Msg} (h : m ∈ (pre ++ [a]).flatten) : m ∈ (pre ++ a :: arr).flatten := by
  rw [show pre ++ a :: arr = (pre ++ [a]) ++ arr by simp, List.flatten_append]
  exact List.mem_append_left _ h

theorem udp_fair (n : Nat) (max : Int) (reply : Pkt) (arr : List (List Msg)) :
    ∀ (pre : List (List Msg)) (s : St), Inv n max reply pre s → Fair n max reply (pre ++ arr) (udpLoop reply max arr s) := by
  induction arr with
  | nil =>
    intro pre s h
    unfold udpLoop
    split
    next e => exact h.ok e
    next => exact h.window
  | cons a arr ih =>
    intro pre s h
    have hm := h.more a
    have h1 := h.sum; have h2 := h.fly; have h3 := h.low; have h4 := h.high; have h5 := h.left; have h6 := h.big
    have step : ∀ s', Inv n max reply (pre ++ [a]) s' → Fair n max reply (pre ++ a :: arr) (udpLoop reply max arr s') := by
      intro s' h'
      have := ih _ s' h'
      rwa [List.append_assoc] at this
    unfold udpLoop
    split
    next e => exact h.ok e
    next hne =>
      split
      next => contradiction
      next a' arr' heq =>
        obtain ⟨rfl, rfl⟩ : a = a' ∧ arr = arr' := by simpa using heq
        split
        next hc =>
          split
          next p box e =>
            obtain ⟨_, hp⟩ := pick_some _ _ _ _ e
            have hcnt := hp.countP_eq IsPkt
            rw [List.countP_cons_of_pos (by rfl)] at hcnt
            split
            next ep =>
              subst ep
              apply step
              refine ⟨by simp only; omega, snoc_right h.right, by simp only [List.length_append, List.length_singleton]; omega, by simpa using h3, by simpa using h4, by simp only; omega, h6, ?_,
                fun m hm' => hm.2 m (hp.mem_iff.2 (List.mem_cons_of_mem _ hm'))⟩
              simp only [List.length_append, List.length_singleton]
              omega
            next ep => exact ⟨ep, mem_whole (hm.2 _ (hp.mem_iff.2 (List.mem_cons_self ..)))⟩
          next box e =>
            obtain ⟨_, hp⟩ := pick_some _ _ _ _ e
            have hcnt := hp.countP_eq IsPkt
            rw [List.countP_cons_of_neg (by simp [IsPkt])] at hcnt
            apply step
            exact ⟨by simp only; omega, h.right, by simp only; omega, by simp only; omega, by simp only; omega, by simp only; omega, h6, by simp only; omega,
              fun m hm' => hm.2 m (hp.mem_iff.2 (List.mem_cons_of_mem _ hm'))⟩
          next x hx1 hx2 e =>
            obtain ⟨m, r⟩ := x
            obtain ⟨hu, hp⟩ := pick_some _ _ _ _ e
            have hin := mem_whole (arr := arr) (hm.2 _ (hp.mem_iff.2 (List.mem_cons_self ..)))
            cases m with
            | pkt p => exact absurd rfl (hx1 p r)
            | sendStatus b =>
              cases b with
              | true => exact absurd rfl (hx2 r)
              | false => exact .inl hin
            | closed => cases hu
            | other => cases hu
          next e =>
            apply step
            exact ⟨by simp only; omega, h.right, by simp only; omega, by simp only; omega, by simp only; omega, by simp only; omega, h6, hm.1, hm.2⟩
        next hc =>
          have hpos : 1 ≤ s.inFlight := by
            by_cases hl : 0 < s.left
            · have : ¬ s.inFlight < max := fun hh => hc ⟨hl, hh⟩
              omega
            · have : s.inFlight ≠ 0 := fun hh => hne ⟨hh, by omega⟩
              omega
          split
          next p box e =>
            obtain ⟨_, hp⟩ := pick_some _ _ _ _ e
            have hcnt := hp.countP_eq IsPkt
            rw [List.countP_cons_of_pos (by rfl)] at hcnt
            split
            next ep =>
              subst ep
              apply step
              refine ⟨by simp only; omega, snoc_right h.right, by simp only [List.length_append, List.length_singleton]; omega, by simp only; omega, by simp only; omega, by simp only; omega, h6, ?_,
                fun m hm' => hm.2 m (hp.mem_iff.2 (List.mem_cons_of_mem _ hm'))⟩
              simp only [List.length_append, List.length_singleton]
              omega
            next ep => exact ⟨ep, mem_whole (hm.2 _ (hp.mem_iff.2 (List.mem_cons_self ..)))⟩
          next box e =>
            obtain ⟨_, hp⟩ := pick_some _ _ _ _ e
            have hcnt := hp.countP_eq IsPkt
            rw [List.countP_cons_of_neg (by simp [IsPkt])] at hcnt
            apply step
            exact ⟨by simp only; omega, h.right, by simp only; omega, by simp only; omega, by simp only; omega, by simp only; omega, h6, by simp only; omega,
              fun m hm' => hm.2 m (hp.mem_iff.2 (List.mem_cons_of_mem _ hm'))⟩
          next x hx1 hx2 e =>
            obtain ⟨m, r⟩ := x
            obtain ⟨hu, hp⟩ := pick_some _ _ _ _ e
            have hin := mem_whole (arr := arr) (hm.2 _ (hp.mem_iff.2 (List.mem_cons_self ..)))
            cases m with
            | pkt p => exact absurd rfl (hx1 p r)
            | sendStatus b =>
              cases b with
              | true => exact absurd rfl (hx2 r)
              | false => exact .inl hin
            | closed => cases hu
            | other => cases hu
          next e =>
            refine ⟨h.window, by omega, pre.length + 1, ?_⟩
            rw [take_pre, hm.1, List.countP_eq_zero.2, Nat.add_zero]
            intro m hmm
            have := pick_none _ _ e m hmm
            cases m <;> simp_all [Msg.udp, IsPkt]

theorem asyncSend_none (box : List Msg) (h : asyncSend box = none) : .sendStatus false ∈ box := by
  unfold asyncSend at h
  split at h
  next => cases h
  next x hx e =>
    obtain ⟨m, r⟩ := x
    obtain ⟨hu, hp⟩ := pick_some _ _ _ _ e
    have hin := hp.mem_iff.2 (List.mem_cons_self ..)
    cases m with
    | sendStatus b =>
      cases b with
      | true => exact absurd rfl (hx r)
      | false => exact hin
    | pkt p => cases hu
    | closed => cases hu
    | other => cases hu
  next => cases h

theorem asyncSend_some (box box' : List Msg) (h : asyncSend box = some box') : box'.countP IsPkt = box.countP IsPkt ∧ ∀ m ∈ box', m ∈ box := by
  unfold asyncSend at h
  split at h
  next rest e =>
    obtain rfl : rest = box' := Option.some.inj h
    obtain ⟨_, hp⟩ := pick_some _ _ _ _ e
    have hcnt := hp.countP_eq IsPkt
    rw [List.countP_cons_of_neg (by simp [IsPkt])] at hcnt
    exact ⟨hcnt.symm, fun m hm => hp.mem_iff.2 (List.mem_cons_of_mem _ hm)⟩
  next => cases h
  next =>
    obtain rfl : box = box' := Option.some.inj h
    exact ⟨rfl, fun _ hm => hm⟩

theorem asyncSend_length (box box' : List Msg) (h : asyncSend box = some box') : box'.length ≤ box.length := by
  unfold asyncSend at h
  split at h
  next rest e =>
    obtain rfl : rest = box' := Option.some.inj h
    have := (pick_some _ _ _ _ e).2.length_eq
    simp only [List.length_cons] at this
    omega
  next => cases h
  next =>
    obtain rfl : box = box' := Option.some.inj h
    exact Nat.le_refl _

theorem tcp_fair (n : Nat) (max : Int) (reply : Pkt) (arr : List (List Msg)) :
    ∀ (pre : List (List Msg)) (s : St), Inv n max reply pre s → Fair n max reply (pre ++ arr) (tcpLoop reply max arr s) := by
  induction arr with
  | nil =>
    intro pre s h
    unfold tcpLoop
    split
    next e => exact h.ok e
    next => exact h.window
  | cons a arr ih =>
    intro pre s h
    have hm := h.more a
    have h1 := h.sum; have h2 := h.fly; have h3 := h.low; have h4 := h.high; have h5 := h.left; have h6 := h.big
    have step : ∀ s', Inv n max reply (pre ++ [a]) s' → Fair n max reply (pre ++ a :: arr) (tcpLoop reply max arr s') := by
      intro s' h'
      have := ih _ s' h'
      rwa [List.append_assoc] at this
    unfold tcpLoop
    split
    next e => exact h.ok e
    next hne =>
      split
      next => contradiction
      next a' arr' heq =>
        obtain ⟨rfl, rfl⟩ : a = a' ∧ arr = arr' := by simpa using heq
        split
        next hc =>
          split
          next e => exact .inl (mem_whole (hm.2 _ (asyncSend_none _ e)))
          next box0 e0 =>
            obtain ⟨hc0, hb0⟩ := asyncSend_some _ _ e0
            split
            next p box e =>
              obtain ⟨_, hp⟩ := pick_some _ _ _ _ e
              have hcnt := hp.countP_eq IsPkt
              rw [List.countP_cons_of_pos (by rfl)] at hcnt
              split
              next ep =>
                subst ep
                apply step
                refine ⟨by simp only; omega, snoc_right h.right, by simp only [List.length_append, List.length_singleton]; omega, by simpa using h3, by simpa using h4, by simp only; omega, h6, ?_,
                  fun m hm' => hm.2 m (hb0 m (hp.mem_iff.2 (List.mem_cons_of_mem _ hm')))⟩
                simp only [List.length_append, List.length_singleton]
                omega
              next ep => exact ⟨ep, mem_whole (hm.2 _ (hb0 _ (hp.mem_iff.2 (List.mem_cons_self ..))))⟩
            next x hx1 e =>
              obtain ⟨m, r⟩ := x
              obtain ⟨hu, hp⟩ := pick_some _ _ _ _ e
              have hin := mem_whole (arr := arr) (hm.2 _ (hb0 _ (hp.mem_iff.2 (List.mem_cons_self ..))))
              cases m with
              | pkt p => exact absurd rfl (hx1 p r)
              | closed => exact .inr hin
              | sendStatus b => cases hu
              | other => cases hu
            next e =>
              apply step
              exact ⟨by simp only; omega, h.right, by simp only; omega, by simp only; omega, by simp only; omega, by simp only; omega, h6, by simp only; omega, fun m hm' => hm.2 m (hb0 m hm')⟩
        next hc =>
          have hpos : 1 ≤ s.inFlight := by
            by_cases hl : 0 < s.left
            · have : ¬ s.inFlight < max := fun hh => hc ⟨hl, hh⟩
              omega
            · have : s.inFlight ≠ 0 := fun hh => hne ⟨hh, by omega⟩
              omega
          split
          next p box e =>
            obtain ⟨_, hp⟩ := pick_some _ _ _ _ e
            have hcnt := hp.countP_eq IsPkt
            rw [List.countP_cons_of_pos (by rfl)] at hcnt
            split
            next ep =>
              subst ep
              apply step
              refine ⟨by simp only; omega, snoc_right h.right, by simp only [List.length_append, List.length_singleton]; omega, by simp only; omega, by simp only; omega, by simp only; omega, h6, ?_,
                fun m hm' => hm.2 m (hp.mem_iff.2 (List.mem_cons_of_mem _ hm'))⟩
              simp only [List.length_append, List.length_singleton]
              omega
            next ep => exact ⟨ep, mem_whole (hm.2 _ (hp.mem_iff.2 (List.mem_cons_self ..)))⟩
          next x hx1 e =>
            obtain ⟨m, r⟩ := x
            obtain ⟨hu, hp⟩ := pick_some _ _ _ _ e
            have hin := mem_whole (arr := arr) (hm.2 _ (hp.mem_iff.2 (List.mem_cons_self ..)))
            cases m with
            | pkt p => exact absurd rfl (hx1 p r)
            | closed => exact .inr hin
            | sendStatus b => cases hu
            | other => cases hu
          next e =>
            refine ⟨h.window, by omega, pre.length + 1, ?_⟩
            rw [take_pre, hm.1, List.countP_eq_zero.2, Nat.add_zero]
            intro m hmm
            have := pick_none _ _ e m hmm
            cases m <;> simp_all [Msg.tcp, IsPkt]

/-- Each turn sends a request, or takes a message. -/
theorem udp_ends (max : Int) (reply : Pkt) (arr : List (List Msg)) : ∀ s s' : St, udpLoop reply max arr s = .running s' → arr.length ≤ s.left.toNat + s.box.length + arr.flatten.length := by
  induction arr with
  | nil => intro s s' _; simp
  | cons a arr ih =>
    intro s s' h
    have hl : ∀ m r, pick Msg.udp (s.box ++ a) = some (m, r) → r.length + 1 = s.box.length + a.length := by
      intro m r e
      have := (pick_some _ _ _ _ e).2.length_eq
      simpa using this.symm
    simp only [List.length_cons, List.flatten_cons, List.length_append]
    unfold udpLoop at h
    split at h
    next => cases h
    next =>
      split at h
      next => contradiction
      next a' arr' heq =>
        obtain ⟨rfl, rfl⟩ : a = a' ∧ arr = arr' := by simpa using heq
        split at h
        next hc =>
          split at h
          next p box e =>
            split at h
            · have := ih _ _ h
              have := hl _ _ e
              simp only at *
              omega
            · cases h
          next box e =>
            have := ih _ _ h
            have := hl _ _ e
            simp only at *
            omega
          next => cases h
          next e =>
            have := ih _ _ h
            simp only [List.length_append] at *
            omega
        next hc =>
          split at h
          next p box e =>
            split at h
            · have := ih _ _ h
              have := hl _ _ e
              simp only at *
              omega
            · cases h
          next box e =>
            have := ih _ _ h
            have := hl _ _ e
            simp only at *
            omega
          next => cases h
          next e => cases h

theorem tcp_ends (max : Int) (reply : Pkt) (arr : List (List Msg)) : ∀ s s' : St, tcpLoop reply max arr s = .running s' → arr.length ≤ s.left.toNat + s.box.length + arr.flatten.length := by
  induction arr with
  | nil => intro s s' _; simp
  | cons a arr ih =>
    intro s s' h
    have hl : ∀ l m r, pick Msg.tcp l = some (m, r) → r.length + 1 = l.length := by
      intro l m r e
      have := (pick_some _ _ _ _ e).2.length_eq
      simpa using this.symm
    simp only [List.length_cons, List.flatten_cons, List.length_append]
    unfold tcpLoop at h
    split at h
    next => cases h
    next =>
      split at h
      next => contradiction
      next a' arr' heq =>
        obtain ⟨rfl, rfl⟩ : a = a' ∧ arr = arr' := by simpa using heq
        split at h
        next hc =>
          split at h
          next => cases h
          next box0 e0 =>
            have h0 := asyncSend_length _ _ e0
            rw [List.length_append] at h0
            split at h
            next p box e =>
              split at h
              · have := ih _ _ h
                have := hl _ _ _ e
                simp only at *
                omega
              · cases h
            next => cases h
            next e =>
              have := ih _ _ h
              simp only at *
              omega
        next hc =>
          split at h
          next p box e =>
            split at h
            · have := ih _ _ h
              have := hl _ _ _ e
              simp only [List.length_append] at *
              omega
            · cases h
          next => cases h
          next e => cases h

/-- The third loop: it counts messages. -/
theorem cast_count (max : Int) (arr : List (List Msg)) : ∀ s s' : St, castLoop max arr s = .ok s' →
    (s'.sent : Int) = s.sent + s.left ∧ (s'.got.length : Int) = s.got.length + s.left + s.inFlight := by
  induction arr with
  | nil =>
    intro s s' h
    unfold castLoop at h
    split at h
    next e => cases h; omega
    next => cases h
  | cons a arr ih =>
    intro s s' h
    unfold castLoop at h
    split at h
    next e => cases h; omega
    next =>
      split at h
      next => contradiction
      next a' arr' heq =>
        split at h
        · split at h
          · have := ih _ _ (by simpa [show arr = arr' by simp_all] using h)
            simp only [List.length_append, List.length_singleton] at this
            omega
          · have := ih _ _ (by simpa [show arr = arr' by simp_all] using h)
            simp only at this
            omega
        · split at h
          · have := ih _ _ (by simpa [show arr = arr' by simp_all] using h)
            simp only [List.length_append, List.length_singleton] at this
            omega
          · cases h

end Verif.Perf
