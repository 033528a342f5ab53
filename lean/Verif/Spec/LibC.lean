import Verif.Model.Basic
/-
What the C library functions are supposed to do, stated on memory contents.
-/
namespace Gotcha.Spec.LibC
open Gotcha

/-- Byte-addressed memory; `none` is not mapped. -/
abbrev Memory := Addr → Option UInt8

/-- A NUL-terminated string `s` is at `p`. -/
def CStr (m : Memory) : Addr → Name → Prop
  | p, [] => m p = some 0
  | p, c :: s => c ≠ 0 ∧ m p = some c ∧ CStr m (p + 1) s

/-- `s` is what is at `p` up to a NUL or `n` characters, whichever comes first. -/
def Seen (m : Memory) : Addr → Nat → Name → Prop
  | _, 0, s => s = []
  | p, _ + 1, [] => m p = some 0
  | p, n + 1, c :: s => c ≠ 0 ∧ m p = some c ∧ Seen m (p + 1) n s

/-- The bytes `bs` are at `p` (they may contain anything). -/
def Bytes (m : Memory) : Addr → List UInt8 → Prop
  | _, [] => True
  | p, c :: s => m p = some c ∧ Bytes m (p + 1) s

/-- `needle` starts at position `i` of `hay`. -/
def OccursAt (needle hay : Name) (i : Nat) : Prop := ∃ pre post, hay = pre ++ needle ++ post ∧ pre.length = i

/-- A decimal digit. -/
def IsDigit (c : UInt8) : Prop := 48 ≤ c.toNat ∧ c.toNat ≤ 57

/-- The number that a string of decimal digits denotes, read from left to right. -/
def decimal (ds : Name) : Nat := ds.foldl (fun v c => v * 10 + (c.toNat - 48)) 0

/-- `k` minus signs, the digits `ds` and a character `c` that ends the number are at `p`. -/
structure Numeral (m : Memory) (p : Addr) (k : Nat) (ds : Name) (c : UInt8) : Prop where
  bytes : Bytes m p (List.replicate k 45 ++ (ds ++ [c]))
  digits : ∀ d ∈ ds, IsDigit d
  ends : ¬ IsDigit c
  dash : ds = [] → c ≠ 45

/-- The entry `s` defines the variable `name`. -/
def EnvDefines (name s : Name) : Prop := ∃ value, s = name ++ 61 :: value

end Gotcha.Spec.LibC
