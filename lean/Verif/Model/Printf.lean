import Verif.Model.LibC
/-
Model of the number formatting and of `gotcha_int_printf` in src/libc_wrappers.c.

Local arrays are lists of bytes with arbitrary initial contents; writing outside is the fault
`outOfBounds`.  Strings (the format and `%s` arguments) are given by their contents before the NUL.
Simplification: in `printf`, `gotcha_write` writes everything it is given (the code ignores its result), and
nobody else writes to the descriptor in between.  `printfWrites` gives the single calls of `gotcha_write` instead.
-/
namespace Gotcha.Printf
open Gotcha Gotcha.LibC

/-- `arr[i] = c`. -/
def setAt (arr : List UInt8) (i : Nat) (c : UInt8) : Except Fault (List UInt8) :=
  if i < arr.length then .ok (arr.set i c) else .error .outOfBounds

/-- src/libc_wrappers.c:212, 237: the number of digits of `val`.  `fuel` is one more than the number
of bits. -/
def countDigits (base : BitVec 64) : Nat → BitVec 64 → Nat → Except Fault Nat
  | 0, _, _ => .error .diverge
  | n + 1, val, len => if val = 0 then .ok len else countDigits base n (val / base) (len + 1)

/-- src/libc_wrappers.c:218-222, 243-246: write the digits from the last to the first; `k` are left.
The string starts at index `b` of the array. -/
def putDigits (base : BitVec 64) (chr : BitVec 64 → UInt8) (b : Nat) :
    Nat → BitVec 64 → List UInt8 → Except Fault (List UInt8)
  | 0, _, arr => .ok arr
  | k + 1, val, arr =>
    match setAt arr (b + k) (chr (val % base)) with
    | .error f => .error f
    | .ok arr' => putDigits base chr b k (val / base) arr'

/-- src/libc_wrappers.c:199-248: the common part of `ulong_to_hexstr` and `ulong_to_str`, which are the
same code but for the base and the digit characters.  The string goes to index `b` of the array,
`strlen` is the size argument; the result is the array and the return value. -/
def ulongTo (base : BitVec 64) (chr : BitVec 64 → UInt8) (num : BitVec 64) (b : Nat) (strlen : Int)
    (arr : List UInt8) : Except Fault (List UInt8 × Int) :=
  if num = 0 then
    if strlen < 2 then .ok (arr, -1)
    else
      match setAt arr b 48 with
      | .error f => .error f
      | .ok arr1 =>
        match setAt arr1 (b + 1) 0 with
        | .error f => .error f
        | .ok arr2 => .ok (arr2, 1)
  else
    match countDigits base 65 num 0 with
    | .error f => .error f
    | .ok len =>
      if (len : Int) + 1 ≥ strlen then .ok (arr, -1)
      else
        match setAt arr (b + len) 0 with
        | .error f => .error f
        | .ok arr1 =>
          match putDigits base chr b len num arr1 with
          | .error f => .error f
          | .ok arr2 => .ok (arr2, len)

/-- src/libc_wrappers.c:244: `'0' + val % 10`. -/
def decChar (d : BitVec 64) : UInt8 := UInt8.ofNat ((48#64 + d).toNat % 256)

/-- src/libc_wrappers.c:203, 219-220: the hexadecimal digit. -/
def hexChar (upper : Bool) (d : BitVec 64) : UInt8 :=
  if d ≤ 9 then UInt8.ofNat ((48#64 + d).toNat % 256)
  else UInt8.ofNat (((if upper then 65#64 else 97#64) + (d - 10)).toNat % 256)

/-- src/libc_wrappers.c:226-248 `ulong_to_str`. -/
def ulongToStr (num : BitVec 64) (b : Nat) (strlen : Int) (arr : List UInt8) :
    Except Fault (List UInt8 × Int) := ulongTo 10 decChar num b strlen arr

/-- src/libc_wrappers.c:199-224 `ulong_to_hexstr`. -/
def ulongToHexstr (num : BitVec 64) (b : Nat) (strlen : Int) (upper : Bool) (arr : List UInt8) :
    Except Fault (List UInt8 × Int) := ulongTo 16 (hexChar upper) num b strlen arr

/-- src/libc_wrappers.c:250-258 `slong_to_str`; `num * -1` overflows for the smallest number. -/
def slongToStr (num : BitVec 64) (strlen : Int) (arr : List UInt8) :
    Except Fault (List UInt8 × Int) :=
  if 0 ≤ num.toInt then ulongToStr num 0 strlen arr
  else if num = BitVec.intMin 64 then .error .intOverflow
  else
    match ulongToStr (-num) 1 (strlen - 1) arr with
    | .error f => .error f
    | .ok (arr1, r) =>
      if r = -1 then .ok (arr1, -1)
      else
        match setAt arr1 0 45 with
        | .error f => .error f
        | .ok arr2 => .ok (arr2, r + 1)

/-- The string in an array: what comes before the first NUL. -/
def cstrOf : List UInt8 → Except Fault Name
  | [] => .error .outOfBounds
  | c :: arr =>
    if c = 0 then .ok []
    else
      match cstrOf arr with
      | .error f => .error f
      | .ok s => .ok (c :: s)

/-- The state of `gotcha_int_printf`: `buffer_pos`, `buffer`, `num_printed`, what was written to
the descriptor, and the buffers passed to `gotcha_write`. -/
structure PState where
  pos : Nat
  buf : List UInt8
  printed : Int
  out : List UInt8
  writes : List (List UInt8) := []

/-- src/libc_wrappers.c:373-381: one character of `add_to_buffer`; buffer_size is 4096. -/
def addChar (st : PState) (c : UInt8) : Except Fault PState :=
  if st.pos ≥ 4096 then
    match int32 (st.printed + 4096) with
    | .error f => .error f
    | .ok n =>
      .ok { st with
        out := st.out ++ st.buf.take 4096, writes := st.writes ++ [st.buf.take 4096], printed := n, pos := 0 + 1 }
  else
    match setAt st.buf st.pos c with
    | .error f => .error f
    | .ok b => .ok { st with buf := b, pos := st.pos + 1 }

/-- src/libc_wrappers.c:369-384 `add_to_buffer`: the rest of the string and the new state. -/
def addToBuffer (percent : Bool) : Name → PState → Except Fault (Name × PState)
  | [], st => .ok ([], st)
  | c :: s, st =>
    if percent || c ≠ 37 then
      match addChar st c with
      | .error f => .error f
      | .ok st' => addToBuffer percent s st'
    else .ok (c :: s, st)

/-- A variadic argument: a 64-bit register or stack slot, the contents of the string that a
`char *` points to, or a `char *` that is NULL. -/
inductive Arg where
  | int (w : BitVec 64)
  | str (s : Name)
  | null

/-- The width flags, src/libc_wrappers.c:408-426. -/
inductive Width where
  | char | short | none | long | longLong | size
  deriving DecidableEq

/-- src/libc_wrappers.c:409-426: the width flag at the beginning of the string and the rest. -/
def width : Name → Width × Name
  | 104 :: 104 :: s => (.char, s)
  | 104 :: s => (.short, s)
  | 108 :: 108 :: s => (.longLong, s)
  | 108 :: s => (.long, s)
  | 122 :: s => (.size, s)
  | s => (.none, s)

/-- src/libc_wrappers.c:431-442: `va_arg` of a signed integer, converted to `signed long`. -/
def signedArg (w : Width) (x : BitVec 64) : BitVec 64 :=
  match w with
  | .char => (x.setWidth 8).signExtend 64
  | .short => (x.setWidth 16).signExtend 64
  | .none => (x.setWidth 32).signExtend 64
  | .long | .longLong | .size => x

/-- src/libc_wrappers.c:449-460, 468-479: `va_arg` of an unsigned integer, converted to
`unsigned long`. -/
def unsignedArg (w : Width) (x : BitVec 64) : BitVec 64 :=
  match w with
  | .char => (x.setWidth 8).setWidth 64
  | .short => (x.setWidth 16).setWidth 64
  | .none => (x.setWidth 32).setWidth 64
  | .long | .longLong | .size => x

/-- Add a whole string (`print_percent` set). -/
def addAll (s : Name) (st : PState) : Except Fault PState :=
  match addToBuffer true s st with
  | .error f => .error f
  | .ok r => .ok r.2

/-- Add the string that a formatting function left in `numstr`. -/
def addNum (r : Except Fault (List UInt8 × Int)) (st : PState) : Except Fault PState :=
  match r with
  | .error f => .error f
  | .ok (arr, _) =>
    match cstrOf arr with
    | .error f => .error f
    | .ok s => addAll s st

/-- src/libc_wrappers.c:428-508: one conversion.  `junk` is the initial contents of `numstr`.  A
missing argument, or one of another kind, is undefined: `uninit`. -/
def convert (junk : List UInt8) (w : Width) (c : UInt8) (args : List Arg) (st : PState) :
    Except Fault (List Arg × PState) :=
  let done (args : List Arg) (r : Except Fault PState) : Except Fault (List Arg × PState) :=
    match r with
    | .error f => .error f
    | .ok st => .ok (args, st)
  if c = 100 ∨ c = 105 then
    match args with
    | .int x :: args => done args (addNum (slongToStr (signedArg w x) 64 junk) st)
    | _ => .error .uninit
  else if c = 117 then
    match args with
    | .int x :: args => done args (addNum (ulongToStr (unsignedArg w x) 0 64 junk) st)
    | _ => .error .uninit
  else if c = 120 ∨ c = 88 ∨ c = 112 then
    match args with
    | .int x :: args =>
      if c ≠ 112 then
        done args (addNum (ulongToHexstr (unsignedArg w x) 0 64 (c = 88) junk) st)
      else
        match addAll [48, 120] st with
        | .error f => .error f
        | .ok st => done args (addNum (ulongToHexstr x 0 64 (c = 88) junk) st)
    | _ => .error .uninit
  else if c = 99 then
    match args with
    | .int x :: args =>
      let b := UInt8.ofNat (x.toNat % 256)
      done args (addAll (if b = 0 then [] else [b]) st)
    | _ => .error .uninit
  else if c = 115 then
    match args with
    | .str s :: args => done args (addAll s st)
    | .null :: _ => .error .nullDeref
    | _ => .error .uninit
  else if c = 37 then done args (addAll [37] st)
  else done args (addAll [37, c] st)

/-- src/libc_wrappers.c:400-510: the loop over the format.  `junk` gives the initial contents of
`numstr` in each round. -/
def printfLoop (junk : Name → List UInt8) : Nat → Name → List Arg → PState → Except Fault PState
  | 0, _, _, _ => .error .diverge
  | n + 1, str, args, st =>
    if str = [] then .ok st
    else
      match addToBuffer false str st with
      | .error f => .error f
      | .ok ([], st) => .ok st
      | .ok (_ :: rest, st) =>
        match rest with
        | [] => .ok st
        | _ =>
          match width rest with
          | (_, []) => .ok st
          | (w, c :: rest') =>
            match convert (junk rest') w c args st with
            | .error f => .error f
            | .ok (args', st') => if rest' = [] then .ok st' else printfLoop junk n rest' args' st'

/-- src/libc_wrappers.c:386-517 `gotcha_int_printf`: the return value and what is written.  `buf` is
the initial contents of `buffer`. -/
def printf (junk : Name → List UInt8) (buf : List UInt8) (format : Name) (args : List Arg) :
    Except Fault (Int × List UInt8) :=
  match printfLoop junk (format.length + 1) format args { pos := 0, buf, printed := 0, out := [] } with
  | .error f => .error f
  | .ok st =>
    match int32 (st.printed + st.pos) with
    | .error f => .error f
    | .ok n => .ok (n, st.out ++ st.buf.take st.pos)

/-- src/libc_wrappers.c:386-517 `gotcha_int_printf`: the return value and the buffers passed to `gotcha_write`, in
order (src/libc_wrappers.c:374, 513). -/
def printfWrites (junk : Name → List UInt8) (buf : List UInt8) (format : Name) (args : List Arg) :
    Except Fault (Int × List (List UInt8)) :=
  match printfLoop junk (format.length + 1) format args { pos := 0, buf, printed := 0, out := [] } with
  | .error f => .error f
  | .ok st =>
    match int32 (st.printed + st.pos) with
    | .error f => .error f
    | .ok n => .ok (n, st.writes ++ [st.buf.take st.pos])

end Gotcha.Printf
