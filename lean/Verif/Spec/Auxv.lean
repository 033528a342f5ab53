import Verif.Model.Auxv
import Verif.Spec.Printf
/-
The formats of /proc/self/auxv and /proc/self/maps, and what should be found in them.
-/
namespace Gotcha.Spec.Auxv
open Gotcha

/-- `n` bytes of `v`, little-endian. -/
def leBytes : Nat → Nat → List UInt8
  | 0, _ => []
  | n + 1, v => UInt8.ofNat (v % 256) :: leBytes n (v / 256)

/-- An entry of the auxiliary vector: type and value, 8 bytes each. -/
def entryBytes (e : Nat × Nat) : List UInt8 := leBytes 8 e.1 ++ leBytes 8 e.2

/-- The file: the entries, a terminating entry of type AT_NULL (0), and anything after that. -/
def auxBytes (es : List (Nat × Nat)) (tail : List UInt8) : List UInt8 :=
  es.flatMap entryBytes ++ leBytes 8 0 ++ tail

/-- Entries of a vector: not of type AT_NULL, and of 64 bits. -/
def EntriesOk (es : List (Nat × Nat)) : Prop := ∀ e ∈ es, 0 < e.1 ∧ e.1 < 2 ^ 64 ∧ e.2 < 2 ^ 64

/-- The value of the last entry of type `t`. -/
def lastOf (t : Nat) (es : List (Nat × Nat)) : Option Nat :=
  (es.reverse.find? (fun e => e.1 = t)).map (·.2)

/-- A schedule without errors. -/
def NoErrors (s : List Gotcha.Auxv.Ev) : Prop := Gotcha.Auxv.Ev.fail ∉ s

/-- A schedule without errors and interruptions. -/
def Quiet (s : List Gotcha.Auxv.Ev) : Prop := ∀ e ∈ s, ∃ k, e = Gotcha.Auxv.Ev.short k

/-! ### Lines of /proc/self/maps -/

def Blank (c : UInt8) : Prop := c = 32 ∨ c = 9 ∨ c = 10

/-- A nonempty word: no blanks, no NUL. -/
def Word (w : Name) : Prop := w ≠ [] ∧ ∀ c ∈ w, ¬ Blank c ∧ c ≠ 0

/-- Hexadecimal digits. -/
def HexDigits (w : Name) : Prop := ∀ c ∈ w, ∃ u, ∃ d < 16, c = Printf.digitChar u d

/-- The number they denote. -/
def hexVal (w : Name) : Nat := w.foldl (fun v c => v * 16 + Printf.digitVal c) 0

/-- A line: `lo-hi perms offset dev inode`, padding, name. -/
structure MapLine where
  lo : Name
  hi : Name
  perms : Name
  offset : Name
  dev : Name
  inode : Name
  pad : Name
  name : Name

def MapLine.bytes (l : MapLine) : List UInt8 :=
  l.lo ++ 45 :: l.hi ++ 32 :: l.perms ++ 32 :: l.offset ++ 32 :: l.dev ++ 32 :: l.inode ++ l.pad ++
    l.name ++ [10]

/-- Well-formed lines, as the kernel writes them (fs/proc/task_mmu.c), of at most 4095 bytes.  The name
may contain blanks, as names of files do; newlines in it are escaped by the kernel. -/
structure MapLine.Ok (l : MapLine) : Prop where
  lo : HexDigits l.lo
  hi : HexDigits l.hi
  perms : Word l.perms
  offset : Word l.offset
  dev : Word l.dev
  inode : Word l.inode
  pad : ∀ c ∈ l.pad, c = 32
  sep : l.name ≠ [] → l.pad ≠ []
  name : ∀ c ∈ l.name, c ≠ 0 ∧ c ≠ 10
  start : ∀ c, l.name.head? = some c → ¬ Blank c
  length : l.bytes.length < 4096

/-- The name up to the first blank. -/
def MapLine.word (l : MapLine) : Name := l.name.takeWhile (fun c => c ≠ 32 && c ≠ 9)

/-- The vdso according to the lines: the first link map with its dynamic section in the first mapping
called `[vdso]`. -/
def vdsoByLines (ls : List MapLine) (maps : List Gotcha.Auxv.LinkMap) : Option Gotcha.Auxv.LinkMap :=
  match ls.find? (fun l => l.word = nm "[vdso]") with
  | none => none
  | some l => maps.find? (fun m => decide (hexVal l.lo % 2 ^ 64 ≤ m.ld.toNat) &&
      decide (m.ld.toNat < hexVal l.hi % 2 ^ 64))

end Gotcha.Spec.Auxv

namespace Gotcha.Spec.Auxv
open Gotcha Gotcha.Auxv

/-- A history of queries: each with the outside world it meets and its argument. -/
def answers (st : VdsoState) : List (Outside × Option Addr) → Except Fault (List Bool)
  | [] => .ok []
  | q :: qs =>
    match isVdso st q.1 q.2 with
    | .error e => .error e
    | .ok (st', a) =>
      match answers st' qs with
      | .error e => .error e
      | .ok as => .ok (a :: as)

/-- The page size that a program should see: the last AT_PAGESZ entry as an `unsigned int`, or 4096. -/
def pageSizeOf (es : List (Nat × Nat)) : Nat :=
  match lastOf 6 es with
  | none => 4096
  | some v => if v % 2 ^ 32 = 0 then 4096 else v % 2 ^ 32

/-- `m` is the first of `maps` with property `p`. -/
def FirstWith (p : LinkMap → Prop) (maps : List LinkMap) (m : LinkMap) : Prop :=
  ∃ pre post, maps = pre ++ m :: post ∧ p m ∧ ∀ x ∈ pre, ¬ p x

/-- The names of the vdso on the platforms supported. -/
def VdsoName (m : LinkMap) : Prop :=
  m.name = some (nm "linux-vdso.so") ∨ m.name = some (nm "linux-gate.so")

/-- The dynamic section of `m` lies at offset `d` of its load address. -/
def DynamicAt (d : Addr) (m : LinkMap) : Prop := m.ld = m.addr + d

/-- The address of the last PT_DYNAMIC header (type 2), 0 if there is none. -/
def lastDynamic (phs : List Phdr) : Addr :=
  match phs.reverse.find? (fun p => p.type = 2) with
  | none => 0
  | some p => p.vaddr

end Gotcha.Spec.Auxv
