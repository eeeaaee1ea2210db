/-!
# Sessions of clients that share a device: what the mutex is for

Written without reference to the model. Sections happen one at a time, each as a whole; the only thing that may be left half done is the
beginning of a session by a client that dies.
-/

set_option autoImplicit false

namespace Verif.Spec.Session

/-- What happens, one at a time. -/
inductive Deed
  /-- client `i` starts a session -/
  | start (i : Nat)
  /-- client `i`, which has the lock of the file or not, notes the number of sessions there have been -/
  | look (i : Nat) (have_ : Bool)
  /-- client `i` ends its session -/
  | finish (i : Nat)
  /-- client `i` dies when it has counted its session and before it has said that the session is active -/
  | half (i : Nat)
deriving DecidableEq, Repr

/-- What a client has noted: the number of sessions, and whether one of another client was going on. -/
structure Note where
  number : BitVec 64
  other : Bool
deriving DecidableEq, Repr

structure State where
  number : BitVec 64
  active : Bool
  note : Nat → Note

def State.put (s : State) (i : Nat) (n : Note) : State := { s with note := fun j => if j = i then n else s.note j }

/-- Does client `i` look again when it now starts a session? -/
def State.stale (s : State) (i : Nat) : Prop := (s.note i).other = true ∨ s.number ≠ (s.note i).number

instance (s : State) (i : Nat) : Decidable (s.stale i) := by unfold State.stale; infer_instance

/-- One deed. -/
def State.deed (s : State) : Deed → State
  | .start i => { s with number := s.number + 1, active := true }.put i
      (if s.stale i then ⟨s.number + 1, false⟩ else ⟨(s.note i).number + 1, (s.note i).other⟩)
  | .look i h => s.put i ⟨s.number, s.active && !h⟩
  | .finish _ => { s with active := false }
  | .half _ => { s with number := s.number + 1 }

def State.deeds (s : State) : List Deed → State
  | [] => s
  | d :: ds => (s.deed d).deeds ds

/-- Counts a session. -/
def Deed.counts : Deed → Bool
  | .start _ => true
  | .half _ => true
  | _ => false

/-- Client `i` notes the number of sessions. -/
def Deed.notes (i : Nat) : Deed → Bool
  | .start j => j == i
  | .look j _ => j == i
  | _ => false

end Verif.Spec.Session
