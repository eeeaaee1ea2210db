import Verif.Model.Emulator

/-!
C98: the hardware emulator of the tests of the ControlHub.
-/

set_option autoImplicit false
set_option linter.unusedSimpArgs false

namespace Verif.C98
open Verif Verif.Emulator

/-! ## Specification -/

/-- What a client of the emulator does. -/
inductive Ev where
  | control (a id : Nat) (body : Bytes)
  | status (a : Nat) (rest : Bytes)
  | resend (a id : Nat) (rest : Bytes)
  | short (a : Nat) (data : Bytes)
  | shutdown
  | other

/-- The header of IPbus 2.0, big-endian: version 2, the ID, byte order 0xf and the type. -/
def hdr (id : Nat) (type : UInt8) : Bytes :=
  [0x20, UInt8.ofNat (id / 256), UInt8.ofNat (id % 256), 0xf0 + type]

/-- The packet of a control request. -/
def packet (id : Nat) (body : Bytes) : Bytes := hdr id 0 ++ body

def wire : Ev → Msg
  | .control a id body => .udp a (packet id body)
  | .status a rest => .udp a (hdr 0 1 ++ rest)
  | .resend a id rest => .udp a (hdr id 2 ++ rest)
  | .short a data => .udp a data
  | .shutdown => .shutdown
  | .other => .other

/-- The number of control packets with an ID other than 0. -/
def numbered : List Ev → Nat
  | [] => 0
  | .control _ id _ :: es => (if id = 0 then 0 else 1) + numbered es
  | _ :: es => numbered es

/-- The ID that is due: from 7645 through 65535, then 1, 2, .... -/
def due (pre : List Ev) : Nat := (7644 + numbered pre) % 65535 + 1

/-- The last control packet: ID and body. -/
def lastOf : List Ev → Option (Nat × Bytes)
  | [] => none
  | .control _ id body :: es => (lastOf es).or (some (id, body))
  | _ :: es => lastOf es

/-- What the emulator is ready for. -/
def Fits (pre : List Ev) : Ev → Prop
  | .control _ id _ => id = due pre ∨ id = 0
  | .resend _ id _ => id < 65536
  | .short _ data => data.length < 4
  | _ => True

/-- The reply: the packet itself, the status with the ID that is due in its fourth word,
the last response if it has the ID asked for. -/
def reply (pre : List Ev) : Ev → List (Nat × Bytes)
  | .control a id body => [(a, packet id body)]
  | .status a _ =>
    [(a, hdr 0 1 ++ [0, 0, 0, 0, 0, 0, 0, 16] ++ hdr (due pre) 0 ++ List.replicate 48 0)]
  | .resend a id _ =>
    match lastOf pre with
    | some (i, body) => if i = id then [(a, packet i body)] else []
    | none => []
  | _ => []

/-- All replies, in order. -/
def replies (pre : List Ev) : List Ev → List (Nat × Bytes)
  | [] => []
  | e :: es => reply pre e ++ replies (pre ++ [e]) es

/-- Every event fits what came before it. -/
def AllFit (evs : List Ev) : Prop := ∀ pre e post, evs = pre ++ e :: post → Fits pre e

/-! ## Lemmas -/

theorem u16_hdr (id : Nat) (h : id < 65536) :
    u16 (UInt8.ofNat (id / 256)) (UInt8.ofNat (id % 256)) = id := by
  simp [u16, UInt8.toNat_ofNat']
  omega

theorem u16_zero {b c : UInt8} (h : u16 b c = 0) : b = 0 ∧ c = 0 := by
  unfold u16 at h
  exact ⟨UInt8.toNat_inj.mp (by simp; omega), UInt8.toNat_inj.mp (by simp; omega)⟩

theorem hdr_u16 (b c : UInt8) (t : UInt8) : hdr (u16 b c) t = [0x20, b, c, 0xf0 + t] := by
  have hb := b.toNat_lt
  have hc := c.toNat_lt
  have h1 : (b.toNat * 256 + c.toNat) / 256 = b.toNat := by omega
  have h2 : (b.toNat * 256 + c.toNat) % 256 = c.toNat := by omega
  simp [hdr, u16, h1, h2]

theorem u16_lt (b c : UInt8) : u16 b c < 65536 := by
  have hb := b.toNat_lt
  have hc := c.toNat_lt
  unfold u16; omega

theorem numbered_append (xs ys : List Ev) : numbered (xs ++ ys) = numbered xs + numbered ys := by
  induction xs with
  | nil => simp [numbered]
  | cons e es ih => cases e <;> simp [numbered, ih]; omega

theorem lastOf_append (xs ys : List Ev) : lastOf (xs ++ ys) = (lastOf ys).or (lastOf xs) := by
  induction xs with
  | nil => simp [lastOf]
  | cons e es ih => cases e <;> simp [lastOf, ih, Option.or_assoc]

theorem due_range (pre : List Ev) : 1 ≤ due pre ∧ due pre < 65536 := by
  unfold due; omega

theorem due_succ (pre : List Ev) (n : Nat) (h : n = numbered pre + 1) :
    (7644 + n) % 65535 + 1 = Hub.incId (due pre) := by
  subst h
  unfold due Hub.incId
  split <;> omega

/-- The state after a past. -/
def stOf (pre : List Ev) : St := ⟨due pre, (lastOf pre).map fun p => packet p.1 p.2⟩

/-- The IDs in the past fit 16 bits. -/
def Small (pre : List Ev) : Prop := ∀ i body, lastOf pre = some (i, body) → i < 65536

theorem status_eq (n : Nat) :
    statusResponse n = hdr 0 1 ++ [0, 0, 0, 0, 0, 0, 0, 16] ++ hdr n 0 ++ List.replicate 48 0 := by
  simp [statusResponse, hdr]

theorem step_fits (pre : List Ev) (e : Ev) (h : Fits pre e) (hs : Small pre) :
    (step2 (stOf pre) (wire e) = .taken (reply pre e) (stOf (pre ++ [e])) ∨
      (step2 (stOf pre) (wire e) = .left ∧ reply pre e = [] ∧ stOf (pre ++ [e]) = stOf pre)) ∧
    Small (pre ++ [e]) := by
  have hd := due_range pre
  cases e with
  | control a id body =>
    have hid : id < 65536 := by simp only [Fits] at h; omega
    refine ⟨.inl ?_, ?_⟩
    · have hu := u16_hdr id hid
      simp only [wire, packet, hdr, List.cons_append, List.nil_append, step2, hu, stOf]
      by_cases h0 : id = 0
      · have : ¬ id = due pre := by omega
        simp [this, h0, reply, packet, hdr, due, numbered_append, numbered, lastOf_append, lastOf]
      · have h1 : id = due pre := by simp only [Fits] at h; omega
        have h2 := due_succ pre (numbered pre + 1) rfl
        simp only [← h1] at h2 ⊢
        simp [reply, packet, hdr, due, numbered_append, numbered, lastOf_append, lastOf, h0, h2]
    · intro i b hl
      simp [lastOf_append, lastOf] at hl
      omega
  | status a rest =>
    refine ⟨.inl ?_, ?_⟩
    · have : ¬ 0 = due pre := by omega
      simp [wire, hdr, step2, stOf, reply, due, numbered_append, numbered, lastOf_append, lastOf,
        status_eq, u16, this]
    · intro i b hl
      simp [lastOf_append, lastOf] at hl
      exact hs i b hl
  | resend a id rest =>
    have hid : id < 65536 := h
    refine ⟨.inl ?_, ?_⟩
    · have hu := u16_hdr id hid
      have hst : stOf (pre ++ [.resend a id rest]) = stOf pre := by
        simp [stOf, due, numbered_append, numbered, lastOf_append, lastOf]
      rw [hst]
      cases hl : lastOf pre with
      | none => simp [wire, hdr, step2, stOf, reply, hl, resendOf]
      | some p =>
        obtain ⟨i, b⟩ := p
        have hi := u16_hdr i (hs i b hl)
        simp [wire, hdr, step2, stOf, reply, hl, resendOf, packet, hu, hi]
    · intro i b hl
      simp [lastOf_append, lastOf] at hl
      exact hs i b hl
  | short a data =>
    refine ⟨.inr ⟨?_, rfl, ?_⟩, ?_⟩
    · simp only [Fits] at h
      match data, h with
      | [], _ => rfl
      | [_], _ => rfl
      | [_, _], _ => rfl
      | [_, _, _], _ => rfl
      | _ :: _ :: _ :: _ :: _, h => simp at h; omega
    · simp [stOf, due, numbered_append, numbered, lastOf_append, lastOf]
    · intro i b hl
      simp [lastOf_append, lastOf] at hl
      exact hs i b hl
  | shutdown =>
    refine ⟨.inr ⟨rfl, rfl, ?_⟩, ?_⟩
    · simp [stOf, due, numbered_append, numbered, lastOf_append, lastOf]
    · intro i b hl
      simp [lastOf_append, lastOf] at hl
      exact hs i b hl
  | other =>
    refine ⟨.inr ⟨rfl, rfl, ?_⟩, ?_⟩
    · simp [stOf, due, numbered_append, numbered, lastOf_append, lastOf]
    · intro i b hl
      simp [lastOf_append, lastOf] at hl
      exact hs i b hl

/-- Going on after a past, with anything behind. -/
theorem run_fits (rest : List Msg) (evs pre : List Ev) (hs : Small pre)
    (h : ∀ p e post, evs = p ++ e :: post → Fits (pre ++ p) e) :
    run step2 (stOf pre) (evs.map wire ++ rest) =
      (replies pre evs ++ (run step2 (stOf (pre ++ evs)) rest).1,
        (run step2 (stOf (pre ++ evs)) rest).2) := by
  induction evs generalizing pre with
  | nil => simp [replies]
  | cons e es ih =>
    have hf : Fits pre e := by simpa using h [] e es rfl
    obtain ⟨hstep, hs'⟩ := step_fits pre e hf hs
    have ih' := ih (pre ++ [e]) hs' (by
      intro p e' post he
      have := h (e :: p) e' post (by simp [he])
      simpa using this)
    simp only [List.map_cons, List.cons_append, run]
    rcases hstep with hstep | ⟨hstep, hr, hst⟩
    · rw [hstep]
      simp only [ih', replies]
      simp
    · rw [hstep]
      simp only [replies, hr, List.nil_append]
      rw [hst] at ih'
      simpa using ih'

end Verif.C98

/-! ## The property -/

namespace Verif
open Verif.Emulator Verif.C98

/-- As long as every packet is one that the emulator is ready for, it answers each of them
as a target does that remembers one response, and stays. -/
theorem C98_answers_partial (evs : List Ev) (h : AllFit evs) :
    (emulator2 (evs.map wire)).1 = replies [] evs ∧
    ∃ s, (emulator2 (evs.map wire)).2 = .waiting s := by
  have := run_fits [] evs [] (by intro i b hl; simp [lastOf] at hl)
    (by intro p e post he; simpa using h p e post he)
  simp only [List.append_nil, run, List.nil_append] at this
  have h0 : stOf [] = ⟨7645, none⟩ := by simp [stOf, due, numbered, lastOf]
  rw [h0] at this
  unfold emulator2
  rw [this]
  exact ⟨rfl, _, rfl⟩

/-- The next packet of at least four bytes that does not fit ends the emulator; nothing
after it is answered. -/
theorem C98_violated_crash (evs : List Ev) (h : AllFit evs) (a : Nat) (d : Bytes)
    (hlen : 4 ≤ d.length) (hbad : ∀ e, Fits evs e → wire e ≠ .udp a d) (rest : List Msg) :
    emulator2 (evs.map wire ++ .udp a d :: rest) = (replies [] evs, .crashed) := by
  have := run_fits (.udp a d :: rest) evs [] (by intro i b hl; simp [lastOf] at hl)
    (by intro p e post he; simpa using h p e post he)
  have h0 : stOf [] = ⟨7645, none⟩ := by simp [stOf, due, numbered, lastOf]
  rw [h0] at this
  unfold emulator2
  rw [this]
  have hc : step2 (stOf evs) (.udp a d) = .crash := by
    match d, hlen, hbad with
    | x :: b :: c :: t :: r, _, hbad =>
      simp only [step2]
      rw [if_neg, if_neg, if_neg, if_neg]
      · rintro ⟨rfl, rfl⟩
        refine hbad (.resend a (u16 b c) r) (u16_lt b c) ?_
        simp [wire, hdr_u16]
      · rintro ⟨rfl, rfl, rfl, rfl⟩
        exact hbad (.status a r) trivial (by simp [wire, hdr])
      · rintro ⟨rfl, h0, rfl⟩
        refine hbad (.control a (u16 b c) r) (.inr h0) ?_
        simp [wire, packet, hdr_u16]
      · rintro ⟨rfl, h0, rfl⟩
        refine hbad (.control a (u16 b c) r) (.inl h0) ?_
        simp [wire, packet, hdr_u16]
  simp [run, hc]

/-- Meets the hypotheses: two numbered packets, one with ID 0, a status request and a
re-send request; all five are answered. -/
def emulatorSample : List Ev :=
  [.control 1 7645 [7], .control 1 7646 [], .control 2 0 [9], .status 1 [], .resend 3 0 []]

theorem emulator_sample_fits : AllFit emulatorSample := by
  intro pre e post h
  match pre, h with
  | [], h => simp [emulatorSample] at h; obtain ⟨rfl, _⟩ := h; simp [Fits, due, numbered]
  | [_], h => simp [emulatorSample] at h; obtain ⟨rfl, rfl, _⟩ := h; simp [Fits, due, numbered]
  | [_, _], h => simp [emulatorSample] at h; obtain ⟨rfl, rfl, rfl, _⟩ := h; simp [Fits]
  | [_, _, _], h => simp [emulatorSample] at h; obtain ⟨rfl, rfl, rfl, rfl, _⟩ := h; simp [Fits]
  | [_, _, _, _], h => simp [emulatorSample] at h; obtain ⟨rfl, rfl, rfl, rfl, rfl, _⟩ := h; simp [Fits]
  | _ :: _ :: _ :: _ :: _ :: _, h => simp [emulatorSample] at h

example : (emulator2 (emulatorSample.map wire)).1.map (fun p => (p.1, p.2.take 5)) =
    [(1, [0x20, 0x1d, 0xdd, 0xf0, 7]), (1, [0x20, 0x1d, 0xde, 0xf0]), (2, [0x20, 0, 0, 0xf0, 9]),
     (1, [0x20, 0, 0, 0xf1, 0]), (3, [0x20, 0, 0, 0xf0, 9])] := by decide +kernel

example : (emulator2 (emulatorSample.map wire)).1[3]?.map (fun p => (p.2.length, (p.2.drop 8).take 8)) =
    some (64, [0, 0, 0, 16, 0x20, 0x1d, 0xdf, 0xf0]) := by decide +kernel

/-- A duplicate of a control packet: a wrong ID, which a target drops, ends the emulator. -/
example : (emulator2 [.udp 1 [0x20, 0x1d, 0xdd, 0xf0], .udp 1 [0x20, 0x1d, 0xdd, 0xf0]]).2 =
    .crashed := by decide +kernel

/-- Sixteen response buffers are announced; only the last response is kept.  Whatever two
packets with consecutive numbers are sent, the first cannot be had again. -/
theorem C98_violated_buffers (a : Nat) (b₁ b₂ : Bytes) :
    let r := emulator2 ([Ev.status a [], .control a 7645 b₁, .control a 7646 b₂,
      .resend a 7645 []].map wire)
    (∃ st, r.1 = [(a, st), (a, packet 7645 b₁), (a, packet 7646 b₂)] ∧
      (st.drop 8).take 4 = [0, 0, 0, 16]) := by
  intro r
  have hf : AllFit [Ev.status a [], .control a 7645 b₁, .control a 7646 b₂, .resend a 7645 []] := by
    intro pre e post h
    match pre, h with
    | [], h => simp at h; obtain ⟨rfl, _⟩ := h; simp [Fits]
    | [_], h => simp at h; obtain ⟨rfl, rfl, _⟩ := h; simp [Fits, due, numbered]
    | [_, _], h => simp at h; obtain ⟨rfl, rfl, rfl, _⟩ := h; simp [Fits, due, numbered]
    | [_, _, _], h => simp at h; obtain ⟨rfl, rfl, rfl, rfl, _⟩ := h; simp [Fits]
    | _ :: _ :: _ :: _ :: _, h => simp at h
  have := (C98_answers_partial _ hf).1
  refine ⟨hdr 0 1 ++ [0, 0, 0, 0, 0, 0, 0, 16] ++ hdr 7645 0 ++ List.replicate 48 0,
    this.trans ?_, ?_⟩
  · simp [replies, reply, lastOf, due, numbered]
  · simp [hdr]

/-- The loop for IPbus 2.0 does not know `shutdown`: with or without it the emulator
does the same. -/
theorem C98_violated_shutdown (ms : List Msg) :
    emulator2 ms = emulator2 (ms.filter (· ≠ .shutdown)) := by
  unfold emulator2
  generalize (⟨7645, none⟩ : St) = s
  induction ms generalizing s with
  | nil => rfl
  | cons m ms ih =>
    cases m with
    | shutdown => simpa [run, step2] using ih s
    | other => simpa [run, step2] using ih s
    | udp a d =>
      simp only [ne_eq, reduceCtorEq, not_false_eq_true, decide_true, List.filter_cons_of_pos, run]
      cases step2 s (.udp a d) <;> simp_all

/-- The loop for IPbus 1 returns every packet to its sender, in order, and ends with the
first `shutdown`. -/
theorem C98_echo (pkts : List (Nat × Bytes)) (rest : List Msg) :
    emulator1 (pkts.map (fun p => .udp p.1 p.2) ++ .shutdown :: rest) = (pkts, .finished) ∧
    (emulator1 (pkts.map (fun p => .udp p.1 p.2))).1 = pkts ∧
    (emulator1 (pkts.map (fun p => .udp p.1 p.2))).2 = .waiting ⟨0, none⟩ := by
  unfold emulator1
  induction pkts with
  | nil => simp [run, step1]
  | cons p ps ih => simp [run, step1, ih]

example : emulator1 [.udp 4 [1, 2], .udp 5 [], .shutdown, .udp 4 [3]] =
    ([(4, [1, 2]), (5, [])], .finished) := by decide +kernel

end Verif
