import Verif.Spec.Malloc
/-
The unit test of the allocator, of any size.
-/
namespace Gotcha.Unit
open Gotcha Spec.Malloc

/-- What `mmap` returns, given the regions it has returned before and the length. -/
abbrev Mmap := List (Nat × Nat) → Nat → Option Nat

/-- A call of `gotcha_malloc` (src/libc_wrappers.c:60-107) by the test.  `World.live` is what the test owns. -/
def alloc (pg : Nat) (mm : Mmap) (n : Nat) (w : World) : Except Fault (World × Nat) :=
  match Malloc.malloc w.heap pg (mm w.regions) n with
  | .error f => .error f
  | .ok (h, p, call) =>
    .ok ({ heap := h, live := if p = 0 then w.live else (p, n) :: w.live, regions := addRegion call w.regions }, p)

/-- A call of `gotcha_free` (src/libc_wrappers.c:126-132). -/
def release (p : Nat) (w : World) : Except Fault World :=
  match Malloc.free w.heap p with
  | .error f => .error f
  | .ok h => .ok { w with heap := h, live := w.live.filter (fun b => b.1 ≠ p) }

/-- An assignment to a pointer in memory (test/unit/gotcha_unit_tests.c:227,235,247). -/
def setWord (a v : Nat) (w : World) : Except Fault World :=
  match Malloc.store w.heap a v with
  | .error f => .error f
  | .ok h => .ok { w with heap := h }

/-- Integer `k` of an array is one half of word `k / 2` (little endian); a write keeps the other half. -/
def half (v k : Nat) : Nat := if k % 2 = 0 then v % 2 ^ 32 else v / 2 ^ 32

/-- Integer `k` of an array is one half of word `k / 2` (little endian); a write keeps the other half. -/
def setHalf (v k x : Nat) : Nat :=
  if k % 2 = 0 then v / 2 ^ 32 * 2 ^ 32 + x % 2 ^ 32 else x % 2 ^ 32 * 2 ^ 32 + v % 2 ^ 32

/-- `p[k] = x` for an array of ints (test/unit/gotcha_unit_tests.c:237). -/
def setInt (p k x : Nat) (w : World) : Except Fault World :=
  match Malloc.load w.heap (p + 8 * (k / 2)) with
  | .error f => .error f
  | .ok v => setWord (p + 8 * (k / 2)) (setHalf v k x) w

/-- `p[k]` (test/unit/gotcha_unit_tests.c:212). -/
def getInt (p k : Nat) (w : World) : Except Fault Nat :=
  match Malloc.load w.heap (p + 8 * (k / 2)) with
  | .error f => .error f
  | .ok v => .ok (half v k)

/-- test/unit/gotcha_unit_tests.c:211-213: whether all is as it should be.  Simplified: `i + j` does not overflow. -/
def checkRow (p i : Nat) (w : World) : List Nat → Except Fault Bool
  | [] => .ok true
  | j :: js =>
    match getInt p j w with
    | .error f => .error f
    | .ok x => if x ≠ i + j then .ok false else checkRow p i w js

/-- test/unit/gotcha_unit_tests.c:207-216 (`check_heap_test`): whether it returns 0. -/
def check (arr : Nat) (w : World) : List Nat → Except Fault Bool
  | [] => .ok true
  | i :: is =>
    match Malloc.load w.heap (arr + 8 * i) with
    | .error f => .error f
    | .ok p =>
      if p = 0 then check arr w is
      else
        match checkRow p i w (List.range i) with
        | .error f => .error f
        | .ok false => .ok false
        | .ok true => check arr w is

/-- test/unit/gotcha_unit_tests.c:226-228. -/
def clear (arr : Nat) : List Nat → World → Except Fault World
  | [], w => .ok w
  | i :: is, w =>
    match setWord (arr + 8 * i) 0 w with
    | .error f => .error f
    | .ok w' => clear arr is w'

/-- test/unit/gotcha_unit_tests.c:236-238; `allocations[j]` is read again for every `k`. -/
def fillRow (arr j : Nat) : List Nat → World → Except Fault World
  | [], w => .ok w
  | k :: ks, w =>
    match Malloc.load w.heap (arr + 8 * j) with
    | .error f => .error f
    | .ok p =>
      match setInt p k (j + k) w with
      | .error f => .error f
      | .ok w' => fillRow arr j ks w'

/-- test/unit/gotcha_unit_tests.c:234-239, for the given values of `j`. -/
def fillSet (pg : Nat) (mm : Mmap) (arr : Nat) : List Nat → World → Except Fault World
  | [], w => .ok w
  | j :: js, w =>
    match alloc pg mm (4 * j) w with
    | .error f => .error f
    | .ok (w1, p) =>
      match setWord (arr + 8 * j) p w1 with
      | .error f => .error f
      | .ok w2 =>
        match fillRow arr j (List.range j) w2 with
        | .error f => .error f
        | .ok w3 => fillSet pg mm arr js w3

/-- test/unit/gotcha_unit_tests.c:245-248, for the given values of `j`. -/
def freeSet (arr : Nat) : List Nat → World → Except Fault World
  | [], w => .ok w
  | j :: js, w =>
    match Malloc.load w.heap (arr + 8 * j) with
    | .error f => .error f
    | .ok p =>
      match release p w with
      | .error f => .error f
      | .ok w1 =>
        match setWord (arr + 8 * j) 0 w1 with
        | .error f => .error f
        | .ok w2 => freeSet arr js w2

/-- The values of `j` in `for (j = i; j < n; j += s)`, `i < s` (test/unit/gotcha_unit_tests.c:234,245). -/
def stride (n s i : Nat) : List Nat := (List.range n).filter fun j => j % s = i

/-- The two loops of test/unit/gotcha_unit_tests.c:233-241 and :244-250: a pass for each `i`, then the check; `false`
when an assertion fails, which ends the test. -/
def stages (arr n : Nat) (pass : Nat → World → Except Fault World) : List Nat → World → Except Fault (World × Bool)
  | [], w => .ok (w, true)
  | i :: is, w =>
    match pass i w with
    | .error f => .error f
    | .ok w1 =>
      match check arr w1 (List.range n) with
      | .error f => .error f
      | .ok false => .ok (w1, false)
      | .ok true => stages arr n pass is w1

/-- test/unit/gotcha_unit_tests.c:224-251, one round. -/
def heapRound (pg : Nat) (mm : Mmap) (n : Nat) (w : World) : Except Fault (World × Bool) :=
  match alloc pg mm (8 * n) w with
  | .error f => .error f
  | .ok (w1, arr) =>
    match clear arr (List.range n) w1 with
    | .error f => .error f
    | .ok w2 =>
      match check arr w2 (List.range n) with
      | .error f => .error f
      | .ok false => .ok (w2, false)
      | .ok true =>
        match stages arr n (fun i => fillSet pg mm arr (stride n 3 i)) (List.range 3) w2 with
        | .error f => .error f
        | .ok (w3, false) => .ok (w3, false)
        | .ok (w3, true) =>
          match stages arr n (fun i => freeSet arr (stride n 5 i)) (List.range 5) w3 with
          | .error f => .error f
          | .ok (w4, false) => .ok (w4, false)
          | .ok (w4, true) =>
            match release arr w4 with
            | .error f => .error f
            | .ok w5 => .ok (w5, true)

/-- test/unit/gotcha_unit_tests.c:218-254 (`gotcha_heap_test`) with `n` for HEAP_TEST_SIZE and any number of rounds;
whether all assertions hold. -/
def heapTest (pg : Nat) (mm : Mmap) (n : Nat) : Nat → World → Except Fault (World × Bool)
  | 0, w => .ok (w, true)
  | l + 1, w =>
    match heapRound pg mm n w with
    | .error f => .error f
    | .ok (w1, false) => .ok (w1, false)
    | .ok (w1, true) => heapTest pg mm n l w1

end Gotcha.Unit
