import Verif.Lemmas.Wire
/-! Concrete configurations and a concrete transport for the non-vacuity examples. -/

set_option autoImplicit false

namespace Verif
open Spec

/-- UDP-like configuration: 1400-byte packets. -/
def demoCfg (v : Ver) : Cfg := ⟨v, none, 1400, 1400, true⟩

/-- ControlHub configuration: 10.0.0.1, port 50001 in network order. -/
def demoHub (v : Ver) : Cfg := ⟨v, some (0x0100000A, 0x51C3), 1400, 1400, true⟩

/-- Tiny packets: the smallest sizes the client can work with. -/
def tinyCfg : Cfg := ⟨.v2, none, 20, 12, true⟩

theorem demoCfg_wf (v : Ver) : WF (demoCfg v) := by
  constructor <;> (try intro) <;> cases v <;> decide
theorem demoHub_wf (v : Ver) : WF (demoHub v) := by
  constructor <;> (try intro) <;> cases v <;> decide
theorem tinyCfg_wf : WF tinyCfg := by
  constructor <;> (try intro h) <;> first | decide | cases h

/-- A transport that fails at the packets and flushes listed as `true` in its state. -/
def demoTr : Transport (List Bool) where
  disp t _ := match t with
    | true :: t => .exc (.transport 0) t
    | _ :: t => .ok () t
    | [] => .ok () []
  flush t := match t with
    | true :: t => .exc (.transport 1) t
    | _ :: t => .ok () t
    | [] => .ok () []
  handler t := t

theorem demoTr_total : demoTr.Total := by
  constructor
  · intro t b
    match t with
    | true :: t => exact .inr ⟨_, _, rfl, by simp⟩
    | false :: t => exact .inl ⟨_, rfl⟩
    | [] => exact .inl ⟨_, rfl⟩
  · intro t
    match t with
    | true :: t => exact .inr ⟨_, _, rfl, by simp⟩
    | false :: t => exact .inl ⟨_, rfl⟩
    | [] => exact .inl ⟨_, rfl⟩

end Verif
