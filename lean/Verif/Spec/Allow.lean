import Verif.Model.TraMgr
/-!
# What a list of allowed devices means

Written without reference to the code: a file lists IP addresses, each with or without a port; a device may be accessed if one of the
lines names its address with no port or with its port.
-/

set_option autoImplicit false

namespace Verif.Spec.Allow
open Verif.TraMgr (Addr)

/-- A line that names a device. -/
structure Entry where
  a : Nat
  b : Nat
  c : Nat
  d : Nat
  port : Option Nat
deriving DecidableEq, Repr

/-- The IP address as a number of 32 bits. -/
def Entry.ip (e : Entry) : Nat := e.a * 16777216 + e.b * 65536 + e.c * 256 + e.d

/-- The four parts are bytes. -/
def Entry.Valid (e : Entry) : Prop := e.a < 256 ∧ e.b < 256 ∧ e.c < 256 ∧ e.d < 256

/-- The line names this device. -/
def Covers (e : Entry) (t : Addr) : Prop := t.ip = e.ip ∧ (e.port = none ∨ e.port = some t.port)

/-- Some line names this device. -/
def Listed (es : List Entry) (t : Addr) : Prop := ∃ e ∈ es, Covers e t

/-- The text consists of decimal digits, at least one. -/
def Num (s : List Char) : Prop := s ≠ [] ∧ ∀ x ∈ s, 48 ≤ x.toNat ∧ x.toNat ≤ 57

/-- The number a decimal text denotes. -/
def value (s : List Char) : Nat := s.foldl (fun n x => 10 * n + (x.toNat - 48)) 0

/-- A part of an IP address: at most three digits. -/
def Part (s : List Char) (n : Nat) : Prop := Num s ∧ s.length ≤ 3 ∧ value s = n

/-- How the port of an entry is written. -/
inductive PortText : List Char → Option Nat → Prop
  | none : PortText [] none
  | some (s : List Char) (h : Num s) : PortText (':' :: s) (some (value s))

/-- How an entry is written: `a.b.c.d` or `a.b.c.d:port`. -/
inductive Text : List Char → Entry → Prop
  | mk (sa sb sc sd sp : List Char) (e : Entry) (ha : Part sa e.a) (hb : Part sb e.b) (hc : Part sc e.c) (hd : Part sd e.d)
      (hp : PortText sp e.port) (v : e.Valid) : Text (sa ++ '.' :: (sb ++ '.' :: (sc ++ '.' :: (sd ++ sp)))) e

/-- What a line may be: blank, a comment, or an entry. Tabs may stand at the very beginning and the very end, spaces between them and
the text. -/
inductive Line : List Char → Option Entry → Prop
  | blank (i j k : Nat) : Line (List.replicate i '\t' ++ List.replicate j ' ' ++ List.replicate k '\t') none
  | comment (i j : Nat) (s : List Char) (h : '\n' ∉ s) :
      Line (List.replicate i '\t' ++ (List.replicate j ' ' ++ '#' :: s)) none
  | entry (i j k n : Nat) (s : List Char) (e : Entry) (h : Text s e) :
      Line (List.replicate i '\t' ++ (List.replicate j ' ' ++ s ++ List.replicate k ' ') ++ List.replicate n '\t') (some e)

/-- The lines of a file and the entries in it, in order. -/
inductive File : List (List Char) → List Entry → Prop
  | nil : File [] []
  | skip {l : List Char} {ls : List (List Char)} {es : List Entry} (h : Line l none) (t : File ls es) : File (l :: ls) es
  | add {l : List Char} {e : Entry} {ls : List (List Char)} {es : List Entry} (h : Line l (some e)) (t : File ls es) :
      File (l :: ls) (e :: es)

end Verif.Spec.Allow
