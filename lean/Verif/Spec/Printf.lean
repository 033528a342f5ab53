import Verif.Model.Printf
/-
What number formatting and `gotcha_int_printf` are supposed to produce.
-/
namespace Gotcha.Spec.Printf
open Gotcha

/-- The character of the digit `d < 16`. -/
def digitChar (upper : Bool) (d : Nat) : UInt8 :=
  UInt8.ofNat (if d < 10 then 48 + d else (if upper then 65 else 97) + (d - 10))

/-- The numeral of `n` in base `b`. -/
def numeral (upper : Bool) (b n : Nat) : Name :=
  if h : n < b ∨ b < 2 then [digitChar upper n]
  else numeral upper b (n / b) ++ [digitChar upper (n % b)]
  termination_by n
  decreasing_by exact Nat.div_lt_self (by omega) (by omega)

/-- The value of a digit character in either case. -/
def digitVal (c : UInt8) : Nat :=
  let n := c.toNat
  if n < 58 then n - 48 else if n < 97 then n - 65 + 10 else n - 97 + 10

/-- `s` is the numeral of `n` in base `b`: digits of that base only, in the requested letter case,
denoting `n`, and without leading zeros. -/
structure Denotes (upper : Bool) (b n : Nat) (s : Name) : Prop where
  digits : ∀ c ∈ s, ∃ d < b, c = digitChar upper d
  value : s.foldl (fun v c => v * b + digitVal c) 0 = n
  leading : s.head? = some 48 → s = [48]
  nonempty : s ≠ []

/-- The size modifiers. -/
inductive Size where
  | hh | h | int | l | ll | z

/-- How a size modifier is written. -/
def Size.text : Size → Name
  | .hh => [104, 104]
  | .h => [104]
  | .int => []
  | .l => [108]
  | .ll => [108, 108]
  | .z => [122]

/-- The number of bits of an argument of that size. -/
def Size.bits : Size → Nat
  | .hh => 8
  | .h => 16
  | .int => 32
  | .l | .ll | .z => 64

/-- The pieces of a format together with their arguments: literal text, `%%`, `%d` or `%i`, `%u`,
`%x` or `%X`, `%p`, `%c`, `%s`. -/
inductive Piece where
  | text (s : Name)
  | percent
  | signed (w : Size) (i : Bool) (x : BitVec 64)
  | unsigned (w : Size) (x : BitVec 64)
  | hex (w : Size) (upper : Bool) (x : BitVec 64)
  | ptr (x : BitVec 64)
  | chr (x : BitVec 64)
  | str (s : Name)
  | other (w : Size) (c : UInt8)

/-- How the piece is written in the format. -/
def Piece.format : Piece → Name
  | .text s => s
  | .percent => [37, 37]
  | .signed w i _ => 37 :: (w.text ++ [if i then 105 else 100])
  | .unsigned w _ => 37 :: (w.text ++ [117])
  | .hex w upper _ => 37 :: (w.text ++ [if upper then 88 else 120])
  | .ptr _ => [37, 112]
  | .chr _ => [37, 99]
  | .str _ => [37, 115]
  | .other w c => 37 :: (w.text ++ [c])

/-- The arguments it takes. -/
def Piece.args : Piece → List Printf.Arg
  | .text _ | .percent | .other _ _ => []
  | .signed _ _ x | .unsigned _ x | .hex _ _ x | .ptr x | .chr x => [.int x]
  | .str s => [.str s]

/-- The decimal rendering of an integer. -/
def integer (z : Int) : Name :=
  if 0 ≤ z then numeral false 10 z.toNat else 45 :: numeral false 10 (-z).toNat

/-- What it should print. -/
def Piece.render : Piece → Name
  | .text s => s
  | .percent => [37]
  | .signed w _ x => integer (x.setWidth w.bits).toInt
  | .unsigned w x => numeral false 10 (x.setWidth w.bits).toNat
  | .hex w upper x => numeral upper 16 (x.setWidth w.bits).toNat
  | .ptr x => [48, 120] ++ numeral false 16 x.toNat
  | .chr x => [UInt8.ofNat (x.toNat % 256)]
  | .str s => s
  | .other _ c => [37, c]

/-- The pieces considered: text without `%`; no `%c` of the NUL character (the code prints nothing
for it); not the smallest 64-bit integer (the code negates it); a
directive whose letter is none of the known ones (`.other`) takes no argument and is printed back
without its size. -/
def Piece.Ok : Piece → Prop
  | .text s => ∀ c ∈ s, c ≠ 37 ∧ c ≠ 0
  | .signed w _ x => (x.setWidth w.bits).toInt ≠ -(2 ^ 63)
  | .chr x => x.toNat % 256 ≠ 0
  | .other _ c => c ≠ 0 ∧ c ∉ [100, 105, 117, 120, 88, 112, 99, 115, 37, 104, 108, 122]
  | _ => True

/-- A whole format, its arguments and its rendering. -/
def format (ps : List Piece) : Name := ps.flatMap Piece.format
def args (ps : List Piece) : List Printf.Arg := ps.flatMap Piece.args
def render (ps : List Piece) : Name := ps.flatMap Piece.render

/-- A long message as the code prints it: the characters at the multiples of 4096 are replaced by the
first one. -/
def Mangled (r out : Name) : Prop :=
  out.length = r.length ∧ ∀ i, out[i]? = if i < r.length ∧ i % 4096 = 0 then r[0]? else r[i]?

end Gotcha.Spec.Printf
