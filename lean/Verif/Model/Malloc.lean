import Verif.Model.Basic
/-
Model of the allocator in src/libc_wrappers.c:32-132 (used when GOTCHA is built without libc).

Addresses and sizes are natural numbers below 2^64, and the arithmetic of `size_t` and of pointers is
written out modulo 2^64.  Simplification: memory is addressed in 8-byte words at multiples of 8; every
address the allocator itself computes is such a multiple (mmap returns page-aligned memory and all
sizes are rounded), any other address is treated as not mapped.  Touching memory that is not mapped is
the fault `outOfBounds`.
-/
namespace Gotcha.Malloc
open Gotcha

/-- The heap: the mapped words and the variable `free_list` (0 is NULL), src/libc_wrappers.c:45. -/
structure Heap where
  mem : Nat → Option Nat
  free : Nat

/-- 64-bit wrap-around. -/
def wrap (x : Nat) : Nat := x % 2 ^ 64

/-- 64-bit subtraction. -/
def sub64 (x y : Nat) : Nat := (x + (2 ^ 64 - y)) % 2 ^ 64

/-- Load a word. -/
def load (h : Heap) (a : Nat) : Except Fault Nat :=
  match h.mem a with
  | none => .error .outOfBounds
  | some v => .ok v

/-- Store a word. -/
def store (h : Heap) (a v : Nat) : Except Fault Heap :=
  match h.mem a with
  | none => .error .outOfBounds
  | some _ => .ok { h with mem := upd h.mem a (some v) }

/-- src/libc_wrappers.c:47-58 `split_allocation`.  A block at `x` has its size at `x` and, while it is
free, its link at `x + 8`; the user's bytes start at `x + 8`. -/
def splitAllocation (h : Heap) (x newSize : Nat) : Except Fault Heap :=
  match load h x with
  | .error f => .error f
  | .ok orig =>
    if sub64 orig newSize ≤ 16 then .ok h
    else
      match store h x newSize with
      | .error f => .error f
      | .ok h1 =>
        let y := wrap (wrap (x + 8) + newSize)
        match store h1 y (sub64 (sub64 orig newSize) 8) with
        | .error f => .error f
        | .ok h2 =>
          match store h2 (wrap (y + 8)) h2.free with
          | .error f => .error f
          | .ok h3 => .ok { h3 with free := y }

/-- src/libc_wrappers.c:66-67: at least 8 bytes, rounded up to a multiple of 8. -/
def roundSize (size : Nat) : Nat :=
  let size := if size < 8 then 8 else size
  if size % 8 ≠ 0 then wrap (size + (8 - size % 8)) else size

/-- src/libc_wrappers.c:72: `!best_fit || diff < best_fit_diff` (both are not negative). -/
def better (diff : Nat) : Option (Nat × Nat × Nat) → Bool
  | none => true
  | some (_, _, d) => decide (diff < d)

/-- src/libc_wrappers.c:70-79: the search for the tightest fit: `best_fit`, `best_fit_prev` and
`best_fit_diff`.  `diff` is signed: negative from 2^63 on.  A cyclic list is the fault `diverge`. -/
def findFit (h : Heap) (size : Nat) :
    Nat → Nat → Nat → Option (Nat × Nat × Nat) → Except Fault (Option (Nat × Nat × Nat))
  | 0, _, _, _ => .error .diverge
  | n + 1, cur, prev, best =>
    if cur = 0 then .ok best
    else
      match load h cur with
      | .error f => .error f
      | .ok sz =>
        let diff := sub64 sz size
        let take := decide (diff < 2 ^ 63) && better diff best
        if take && decide (diff = 0) then .ok (some (cur, prev, diff))
        else
          match load h (wrap (cur + 8)) with
          | .error f => .error f
          | .ok next => findFit h size n next cur (if take then some (cur, prev, diff) else best)

/-- src/libc_wrappers.c:92-98: the length of a new allocation area.  `block_size` is signed, so its
remainder has the sign of `block_size`; the additions are taken modulo 2^64. -/
def blockLen (pg size : Nat) : Nat :=
  let b := wrap (size + 8)
  if b > 32768 then
    if b < 2 ^ 63 then (if b % pg ≠ 0 then wrap (b + (pg - b % pg)) else b)
    else if (2 ^ 64 - b) % pg ≠ 0 then wrap (b + (pg + (2 ^ 64 - b) % pg)) else b
  else 32768

/-- Memory after `mmap` returned `len` bytes of zeros at `a`. -/
def mapped (mem : Nat → Option Nat) (a len : Nat) : Nat → Option Nat :=
  fun x => if a ≤ x ∧ x < a + len ∧ x % 8 = 0 then some 0 else mem x

/-- src/libc_wrappers.c:60-107 `gotcha_malloc`: the new heap, the returned pointer (0 is NULL), and
the call of `mmap` if one was made, with its length and result.  `mm` is what `mmap` returns for a
given length; `none` is MAP_FAILED.  `pg` is `gotcha_getpagesize()`. -/
def malloc (h : Heap) (pg : Nat) (mm : Nat → Option Nat) (size : Nat) :
    Except Fault (Heap × Nat × Option (Nat × Option Nat)) :=
  let size := roundSize size
  match findFit h size (2 ^ 64) h.free 0 none with
  | .error f => .error f
  | .ok (some (x, prev, _)) =>
    match load h (wrap (x + 8)) with
    | .error f => .error f
    | .ok next =>
      match (if prev ≠ 0 then store h (wrap (prev + 8)) next else .ok { h with free := next }) with
      | .error f => .error f
      | .ok h1 =>
        match splitAllocation h1 x size with
        | .error f => .error f
        | .ok h2 => .ok (h2, wrap (x + 8), none)
  | .ok none =>
    let len := blockLen pg size
    match mm len with
    | none => .ok (h, 0, some (len, none))
    | some a =>
      match store { h with mem := mapped h.mem a len } a (sub64 len 8) with
      | .error f => .error f
      | .ok h1 =>
        match splitAllocation h1 a size with
        | .error f => .error f
        | .ok h2 => .ok (h2, wrap (a + 8), some (len, some a))

/-- src/libc_wrappers.c:126-132 `gotcha_free`. -/
def free (h : Heap) (buffer : Nat) : Except Fault Heap :=
  let x := sub64 buffer 8
  match store h (wrap (x + 8)) h.free with
  | .error f => .error f
  | .ok h1 => .ok { h1 with free := x }

/-- src/libc_wrappers.c:134-139 `gotcha_memcpy`, in words, from word `i` on with `n` left.  The copied
sizes are multiples of 8. -/
def copyWords (h : Heap) (dest src : Nat) : Nat → Nat → Except Fault Heap
  | 0, _ => .ok h
  | n + 1, i =>
    match load h (wrap (src + 8 * i)) with
    | .error f => .error f
    | .ok v =>
      match store h (wrap (dest + 8 * i)) v with
      | .error f => .error f
      | .ok h1 => copyWords h1 dest src n (i + 1)

/-- src/libc_wrappers.c:109-124 `gotcha_realloc`. -/
def realloc (h : Heap) (pg : Nat) (mm : Nat → Option Nat) (buffer size : Nat) :
    Except Fault (Heap × Nat × Option (Nat × Option Nat)) :=
  let x := sub64 buffer 8
  match load h x with
  | .error f => .error f
  | .ok sz =>
    if size ≤ sz then .ok (h, buffer, none)
    else
      match malloc h pg mm size with
      | .error f => .error f
      | .ok (h1, q, call) =>
        if q = 0 then .ok (h1, 0, call)
        else
          match load h1 x with
          | .error f => .error f
          | .ok sz1 =>
            match copyWords h1 q buffer (sz1 / 8) 0 with
            | .error f => .error f
            | .ok h2 =>
              match free h2 buffer with
              | .error f => .error f
              | .ok h3 => .ok (h3, q, call)

end Gotcha.Malloc
