import Verif.Model.Malloc
/-
A program that uses the allocator, and what it relies on.
-/
namespace Gotcha.Spec.Malloc
open Gotcha Gotcha.Malloc

/-- What a program does with the allocator.  `mm` is what `mmap` would return for each length at that
time.  `write p i v` changes word `i` of the block at `p` (writing some of its bytes). -/
inductive Op where
  | malloc (n : Nat) (mm : Nat → Option Nat)
  | free (p : Nat)
  | realloc (p n : Nat) (mm : Nat → Option Nat)
  | write (p i v : Nat)

/-- The program's view: the heap, the blocks it owns with the sizes it asked for, and the memory that
`mmap` handed out. -/
structure World where
  heap : Heap
  live : List (Nat × Nat)
  regions : List (Nat × Nat)

/-- Before the first call: nothing is mapped, and `free_list` is NULL. -/
def World.init : World := { heap := { mem := fun _ => none, free := 0 }, live := [], regions := [] }

/-- The regions after a call that may have called `mmap`. -/
def addRegion (call : Option (Nat × Option Nat)) (regions : List (Nat × Nat)) : List (Nat × Nat) :=
  match call with
  | some (len, some a) => (a, len) :: regions
  | _ => regions

/-- One operation. -/
def step (pg : Nat) (w : World) : Op → Except Fault World
  | .malloc n mm =>
    match malloc w.heap pg mm n with
    | .error f => .error f
    | .ok (h, p, call) =>
      .ok { heap := h, live := if p = 0 then w.live else (p, n) :: w.live,
            regions := addRegion call w.regions }
  | .free p =>
    match free w.heap p with
    | .error f => .error f
    | .ok h => .ok { w with heap := h, live := w.live.filter (fun b => b.1 ≠ p) }
  | .realloc p n mm =>
    match realloc w.heap pg mm p n with
    | .error f => .error f
    | .ok (h, q, call) =>
      .ok { heap := h, live := if q = 0 then w.live else (q, n) :: w.live.filter (fun b => b.1 ≠ p),
            regions := addRegion call w.regions }
  | .write p i v =>
    match store w.heap (p + 8 * i) v with
    | .error f => .error f
    | .ok h => .ok { w with heap := h }

/-- `mmap` returns fresh, aligned memory in the lower half of the address space. -/
def Fresh (regions : List (Nat × Nat)) (a l : Nat) : Prop :=
  0 < a ∧ a % 8 = 0 ∧ a + l ≤ 2 ^ 63 ∧ ∀ r ∈ regions, a + l ≤ r.1 ∨ r.1 + r.2 ≤ a

/-- A correct program: sizes below 2^63; it frees, resizes and writes only what it owns. -/
def Ok (w : World) : Op → Prop
  | .malloc n mm => n < 2 ^ 63 ∧ ∀ l a, mm l = some a → Fresh w.regions a l
  | .free p => ∃ n, (p, n) ∈ w.live
  | .realloc p n mm => (∃ m, (p, m) ∈ w.live) ∧ n < 2 ^ 63 ∧
      ∀ l a, mm l = some a → Fresh w.regions a l
  | .write p i _ => ∃ n, (p, n) ∈ w.live ∧ 8 * i < n

/-- The states of correct programs. -/
inductive Reach (pg : Nat) : World → Prop where
  | init : Reach pg World.init
  | step {w w' : World} {op : Op} : Reach pg w → Ok w op → step pg w op = .ok w' → Reach pg w'

/-- A sequence of operations. -/
def run (pg : Nat) : World → List Op → Except Fault World
  | w, [] => .ok w
  | w, op :: ops =>
    match step pg w op with
    | .error f => .error f
    | .ok w' => run pg w' ops

/-- A correct sequence of operations. -/
def OkRun (pg : Nat) : World → List Op → Prop
  | _, [] => True
  | w, op :: ops => Ok w op ∧ ∀ w', step pg w op = .ok w' → OkRun pg w' ops

/-- The free list, as the links in memory give it: addresses and sizes. -/
def FreeList (mem : Nat → Option Nat) : Nat → List (Nat × Nat) → Prop
  | cur, [] => cur = 0
  | cur, b :: rest => cur = b.1 ∧ mem b.1 = some b.2 ∧
      ∃ next, mem (b.1 + 8) = some next ∧ FreeList mem next rest

/-- Blocks (address of the header and size) fill the memory from `a` to `e` without gaps. -/
def Tiles : Nat → Nat → List (Nat × Nat) → Prop
  | a, e, [] => a = e
  | a, e, b :: bs => b.1 = a ∧ Tiles (a + 8 + b.2) e bs

/-- The blocks fill all regions. -/
inductive Cover : List (Nat × Nat) → List (Nat × Nat) → Prop where
  | nil : Cover [] []
  | cons {r : Nat × Nat} {R bs B} : Tiles r.1 (r.1 + r.2) bs → Cover R B → Cover (r :: R) (bs ++ B)

/-- Two byte ranges do not overlap. -/
def Apart (a n b m : Nat) : Prop := a + n ≤ b ∨ b + m ≤ a

end Gotcha.Spec.Malloc
