import Verif.Model.Basic
/-
Model of the string and memory functions of src/libc_wrappers.c (used when GOTCHA is built without
libc, as the target gotcha_no_libc with FORCE_NO_LIBC, src/CMakeLists.txt:32).

Memory is a map from addresses to bytes; `none` is not mapped, and touching it is the fault
`outOfBounds`.  Pointers are 64-bit and wrap around.  A loop over an `int` index gets 2^31 steps:
the next increment would be a signed overflow.  A loop over a `size_t` index or a pointer gets 2^64
steps: after that many the index has wrapped around and the loop repeats itself forever.
-/
namespace Gotcha.LibC
open Gotcha

abbrev Mem := Addr → Option UInt8

/-- `*(unsigned char *)p`. -/
def load (m : Mem) (p : Addr) : Except Fault UInt8 :=
  match m p with
  | none => .error .outOfBounds
  | some b => .ok b

/-- `*(unsigned char *)p = b`. -/
def store (m : Mem) (p : Addr) (b : UInt8) : Except Fault Mem :=
  match m p with
  | none => .error .outOfBounds
  | some _ => .ok (upd m p (some b))

/-- `p + i` for a pointer to char. -/
def off (p : Addr) (i : Nat) : Addr := p + BitVec.ofNat 64 i

/-- The value of a `char` (signed on x86-64). -/
def schar (b : UInt8) : Int := (BitVec.ofNat 8 b.toNat).toInt

/-- src/libc_wrappers.c:134-139 `gotcha_memcpy`, from index `i` on with `n` bytes left. -/
def memcpyLoop (m : Mem) (dest src : Addr) : Nat → Nat → Except Fault Mem
  | 0, _ => .ok m
  | n + 1, i =>
    match load m (off src i) with
    | .error f => .error f
    | .ok b =>
      match store m (off dest i) b with
      | .error f => .error f
      | .ok m' => memcpyLoop m' dest src n (i + 1)

/-- src/libc_wrappers.c:134-139 `gotcha_memcpy`. -/
def memcpy (m : Mem) (dest src : Addr) (size : BitVec 64) : Except Fault Mem :=
  memcpyLoop m dest src size.toNat 0

/-- src/libc_wrappers.c:519-526 `gotcha_memset`, from index `i` on with `n` bytes left. -/
def memsetLoop (m : Mem) (s : Addr) (b : UInt8) : Nat → Nat → Except Fault Mem
  | 0, _ => .ok m
  | n + 1, i =>
    match store m (off s i) b with
    | .error f => .error f
    | .ok m' => memsetLoop m' s b n (i + 1)

/-- src/libc_wrappers.c:519-526 `gotcha_memset`; `c` is converted to unsigned char. -/
def memset (m : Mem) (s : Addr) (c : BitVec 32) (n : BitVec 64) : Except Fault Mem :=
  memsetLoop m s (UInt8.ofNat (c.toNat % 256)) n.toNat 0

/-- src/libc_wrappers.c:141-152 `gotcha_strncmp`: the loop from index `i` on with `n` steps left. -/
def strncmpLoop (m : Mem) (one two : Addr) : Nat → Nat → Except Fault Int
  | 0, _ => .ok 0
  | n + 1, i =>
    match load m (off one i) with
    | .error f => .error f
    | .ok x =>
      match load m (off two i) with
      | .error f => .error f
      | .ok y =>
        if x = 0 then .ok (if y = 0 then 0 else 1)
        else if x ≠ y then .ok (schar x - schar y)
        else strncmpLoop m one two n (i + 1)

/-- src/libc_wrappers.c:141-152 `gotcha_strncmp`; a negative `max_length` makes no step.  The index
stays below `max_length`, so it does not overflow. -/
def strncmp (m : Mem) (one two : Addr) (maxLength : BitVec 32) : Except Fault Int :=
  strncmpLoop m one two maxLength.toInt.toNat 0

/-- src/libc_wrappers.c:154-164 `gotcha_strcmp`, the loop. -/
def strcmpLoop (m : Mem) (one two : Addr) : Nat → Nat → Except Fault Int
  | 0, _ => .error .intOverflow
  | n + 1, i =>
    match load m (off one i) with
    | .error f => .error f
    | .ok x =>
      match load m (off two i) with
      | .error f => .error f
      | .ok y =>
        if x = 0 then .ok (if y = 0 then 0 else 1)
        else if x ≠ y then .ok (schar x - schar y)
        else strcmpLoop m one two n (i + 1)

/-- src/libc_wrappers.c:154-164 `gotcha_strcmp`. -/
def strcmp (m : Mem) (one two : Addr) : Except Fault Int := strcmpLoop m one two (2 ^ 31) 0

/-- src/libc_wrappers.c:172-176: the inner loop of `gotcha_strstr` at position `i`.  `some true`:
found; `some false`: the haystack ended, the search is over; `none`: mismatch, go on. -/
def strstrInner (m : Mem) (searchIn searchFor : Addr) (i : Nat) :
    Nat → Nat → Except Fault (Option Bool)
  | 0, _ => .error .intOverflow
  | n + 1, j =>
    match load m (off searchFor j) with
    | .error f => .error f
    | .ok x =>
      if x = 0 then .ok (some true)
      else
        match load m (off searchIn (i + j)) with
        | .error f => .error f
        | .ok y =>
          if y = 0 then .ok (some false)
          else if x ≠ y then .ok none
          else strstrInner m searchIn searchFor i n (j + 1)

/-- src/libc_wrappers.c:170-177: the outer loop of `gotcha_strstr`; `c0` is `searchFor[0]`. -/
def strstrLoop (m : Mem) (searchIn searchFor : Addr) (c0 : UInt8) :
    Nat → Nat → Except Fault (Option Addr)
  | 0, _ => .error .intOverflow
  | n + 1, i =>
    match load m (off searchIn i) with
    | .error f => .error f
    | .ok y =>
      if y = 0 then .ok none
      else if y ≠ c0 then strstrLoop m searchIn searchFor c0 n (i + 1)
      else
        match strstrInner m searchIn searchFor i (2 ^ 31 - 1) 1 with
        | .error f => .error f
        | .ok (some true) => .ok (some (off searchFor i))
        | .ok (some false) => .ok none
        | .ok none => strstrLoop m searchIn searchFor c0 n (i + 1)

/-- src/libc_wrappers.c:166-179 `gotcha_strstr`; `none` is NULL. -/
def strstr (m : Mem) (searchIn searchFor : Addr) : Except Fault (Option Addr) :=
  match load m searchFor with
  | .error f => .error f
  | .ok c0 => if c0 = 0 then .ok none else strstrLoop m searchIn searchFor c0 (2 ^ 31) 0

/-- src/libc_wrappers.c:185-190 `gotcha_strlen`, the loop. -/
def strlenLoop (m : Mem) (s : Addr) : Nat → Nat → Except Fault Nat
  | 0, _ => .error .diverge
  | n + 1, i =>
    match load m (off s i) with
    | .error f => .error f
    | .ok b => if b = 0 then .ok i else strlenLoop m s n (i + 1)

/-- src/libc_wrappers.c:185-190 `gotcha_strlen`. -/
def strlen (m : Mem) (s : Addr) : Except Fault Nat := strlenLoop m s (2 ^ 64) 0

/-- src/libc_wrappers.c:192-197 `gotcha_strnlen`, the loop: `s[i]` is read before `i` is compared. -/
def strnlenLoop (m : Mem) (s : Addr) (max : Nat) : Nat → Nat → Except Fault Nat
  | 0, _ => .error .diverge
  | n + 1, i =>
    match load m (off s i) with
    | .error f => .error f
    | .ok b => if b ≠ 0 ∧ i < max then strnlenLoop m s max n (i + 1) else .ok i

/-- src/libc_wrappers.c:192-197 `gotcha_strnlen`. -/
def strnlen (m : Mem) (s : Addr) (max : BitVec 64) : Except Fault Nat :=
  strnlenLoop m s max.toNat (2 ^ 64) 0

/-- src/libc_wrappers.c:528-535 `gotcha_strncat`; it returns `dest`. -/
def strncat (m : Mem) (dest src : Addr) (n : BitVec 64) : Except Fault Mem :=
  match strlen m dest with
  | .error f => .error f
  | .ok l =>
    let dest' := off dest l
    match strnlen m src n with
    | .error f => .error f
    | .ok stop =>
      match store m (off dest' stop) 0 with
      | .error f => .error f
      | .ok m' => memcpy m' dest' src n

/-- src/libc_wrappers.c:286-290: the loop of `gotcha_getenv`.  The array `__environ` is given as the
list of its entries before the terminating NULL.  `nameLen` is an `int`. -/
def getenvLoop (m : Mem) (name : Addr) (nameLen : BitVec 32) : List Addr → Except Fault (Option Addr)
  | [] => .ok none
  | s :: rest =>
    match strncmp m name s nameLen with
    | .error f => .error f
    | .ok r =>
      if r ≠ 0 then getenvLoop m name nameLen rest
      else
        -- `(*s)[name_len]`, name_len sign-extended
        match load m (s + nameLen.signExtend 64) with
        | .error f => .error f
        | .ok c =>
          if c ≠ 61 then getenvLoop m name nameLen rest
          else .ok (some (s + nameLen.signExtend 64 + 1))

/-- src/libc_wrappers.c:281-292 `gotcha_getenv`; the length is converted to `int`. -/
def getenv (m : Mem) (name : Addr) (environ : List Addr) : Except Fault (Option Addr) :=
  match strlen m name with
  | .error f => .error f
  | .ok l => getenvLoop m name (BitVec.ofNat 32 l) environ

/-- An `int` result, or overflow. -/
def int32 (z : Int) : Except Fault Int :=
  if -2147483648 ≤ z ∧ z ≤ 2147483647 then .ok z else .error .intOverflow

/-- src/libc_wrappers.c:343-346: the minus signs of `gotcha_atoi`.  `neg` is 1 or -1. -/
def atoiNeg (m : Mem) : Nat → Addr → Int → Except Fault (Addr × Int)
  | 0, _, _ => .error .diverge
  | n + 1, p, neg =>
    match load m p with
    | .error f => .error f
    | .ok c => if c = 45 then atoiNeg m n (p + 1) (neg * -1) else .ok (p, neg)

/-- src/libc_wrappers.c:348: the number of digits at `p`. -/
def atoiLen (m : Mem) (p : Addr) : Nat → Nat → Except Fault Nat
  | 0, _ => .error .intOverflow
  | n + 1, len =>
    match load m (off p len) with
    | .error f => .error f
    | .ok c => if schar c ≥ 48 ∧ schar c ≤ 57 then atoiLen m p n (len + 1) else .ok len

/-- src/libc_wrappers.c:351-354: the loop over the digits, the last one first; `k` are left.  Every
`int` operation is checked: `mult * digit`, the sum, and `mult *= 10` also after the last digit. -/
def atoiVal (m : Mem) (p : Addr) : Nat → Int → Int → Except Fault Int
  | 0, val, _ => .ok val
  | k + 1, val, mult =>
    match load m (off p k) with
    | .error f => .error f
    | .ok c =>
      match int32 (mult * (schar c - 48)) with
      | .error f => .error f
      | .ok t =>
        match int32 (val + t) with
        | .error f => .error f
        | .ok val' =>
          match int32 (mult * 10) with
          | .error f => .error f
          | .ok mult' => atoiVal m p k val' mult'

/-- src/libc_wrappers.c:339-357 `gotcha_atoi`. -/
def atoi (m : Mem) (nptr : Addr) : Except Fault Int :=
  match atoiNeg m (2 ^ 64) nptr 1 with
  | .error f => .error f
  | .ok (p, neg) =>
    match atoiLen m p (2 ^ 31) 0 with
    | .error f => .error f
    | .ok len =>
      match atoiVal m p len 0 1 with
      | .error f => .error f
      | .ok val => int32 (val * neg)

/-- The same loop when `int` arithmetic wraps around (as with -fwrapv). -/
def atoiValWrap (m : Mem) (p : Addr) : Nat → BitVec 32 → BitVec 32 → Except Fault (BitVec 32)
  | 0, val, _ => .ok val
  | k + 1, val, mult =>
    match load m (off p k) with
    | .error f => .error f
    | .ok c => atoiValWrap m p k (val + mult * BitVec.ofInt 32 (schar c - 48)) (mult * 10)

/-- src/libc_wrappers.c:339-357 `gotcha_atoi` with wrap-around arithmetic. -/
def atoiWrap (m : Mem) (nptr : Addr) : Except Fault (BitVec 32) :=
  match atoiNeg m (2 ^ 64) nptr 1 with
  | .error f => .error f
  | .ok (p, neg) =>
    match atoiLen m p (2 ^ 31) 0 with
    | .error f => .error f
    | .ok len =>
      match atoiValWrap m p len 0 1 with
      | .error f => .error f
      | .ok val => .ok (val * BitVec.ofInt 32 neg)

end Gotcha.LibC
